import Verif.Proofs.LiveRun
import Verif.Proofs.AdminRuns
/-
Forward direction for StartRebalance and EndRebalance. Used by C56.
-/
set_option autoImplicit false
namespace S

/-- The accounts of a StartRebalance are those the program will derive. -/
structure StartKeysOk (cfg : Cfg) (w : World) (k : StartKeys) (i j : Nat) (src dst : Callee) (p : PoolState) (s d : LstState) : Prop where
  poolKey : k.poolState = cfg.poolState
  listKey : k.lstStateList = cfg.lstStateList
  recordKey : k.rebalanceRecord = cfg.rebalanceRecord
  ixKey : k.instructions = cfg.instructionsSysvar
  sysKey : k.systemProgram = cfg.systemProgram
  pool : w.ctl.pool = some p
  notReb : p.isRebalancing = 0
  notDis : p.isDisabled = 0
  noRec : w.ctl.rebal = none
  auth : k.rebalanceAuthority = p.rebalanceAuthority
  srcEntry : w.ctl.lsts[i]? = some s
  dstEntry : w.ctl.lsts[j]? = some d
  srcMint : s.mint = k.srcLstMint
  dstMint : d.mint = k.dstLstMint
  inputOk : d.isInputDisabled = 0
  srcProg : ∃ m, w.led.mints k.srcLstMint = some m ∧ m.program = k.srcLstTokenProgram
  srcRes : cfg.ata cfg.poolState k.srcLstTokenProgram s.mint s.poolReservesBump = some k.srcPoolReserves
  dstRes : ∃ m, w.led.mints k.dstLstMint = some m ∧ cfg.ata cfg.poolState m.program d.mint d.poolReservesBump = some k.dstPoolReserves
  srcCalc : src.program = s.solValueCalculator
  dstCalc : dst.program = d.solValueCalculator
  srcMetas : ∃ r, src.metas = roMeta k.srcLstMint :: r
  dstMetas : ∃ r, dst.metas = roMeta k.dstLstMint :: r

structure StartRebAccs.Are (a : StartRebAccs) (k : StartKeys) : Prop where
  auth : a.rebalanceAuthority.key = k.rebalanceAuthority
  pool : a.poolState.key = k.poolState
  list : a.lstStateList.key = k.lstStateList
  record : a.rebalanceRecord.key = k.rebalanceRecord
  srcLstMint : a.srcLstMint.key = k.srcLstMint
  dstLstMint : a.dstLstMint.key = k.dstLstMint
  srcRes : a.srcPoolReserves.key = k.srcPoolReserves
  dstRes : a.dstPoolReserves.key = k.dstPoolReserves
  withdrawTo : a.withdrawTo.key = k.withdrawTo
  ixs : a.instructions.key = k.instructions
  sys : a.systemProgram.key = k.systemProgram
  srcTp : a.srcLstTokenProgram.key = k.srcLstTokenProgram

theorem verifyStart_live {cfg : Cfg} {tx : TxInfo} {w : World} {k : StartKeys} {i j : Nat} {src dst : Callee} {p : PoolState} {s d : LstState}
    (h : StartKeysOk cfg w k i j src dst p s d) {accs : List Acc}
    (hseen : SeenAs (k.metas ++ (roMeta src.program :: src.metas.drop 1 ++ roMeta dst.program :: dst.metas.drop 1)) accs)
    {ra da : TokenAcc} (hra : w.led.tok k.srcPoolReserves = some ra) (hda : w.led.tok k.dstPoolReserves = some da)
    {amount mn mx : Nat} (hmn : mn ≤ ra.amount) (hmx : da.amount ≤ mx) (hsucc : verifySucceedingEnd cfg tx k.dstLstMint = .ok ()) :
    ∃ a suf c, StartRebAccs.load accs = .ok (a, suf) ∧
      verifyStartRebalance cfg tx w a suf ⟨src.metas.length, i, j, amount, mn, mx⟩ = .ok c ∧ a.Are k ∧
      src.Is c.src.program c.src.metas ∧ dst.Is c.dst.program c.dst.metas := by
  obtain ⟨a, suf, hl, hk, hsuf⟩ := seen_start hseen
  obtain ⟨sa, db, rfl, hsa, hdb⟩ := hsuf.split
  obtain ⟨_, hsm⟩ := h.srcMetas
  obtain ⟨_, hdm⟩ := h.dstMetas
  obtain ⟨x, hx, hxi⟩ := verifyCalcCpi_live hsm hsa h.srcEntry h.srcCalc
  obtain ⟨y, hy, hyi⟩ := verifyCalcCpi_live hdm hdb h.dstEntry h.dstCalc
  simp only [StartKeys.metas, StartRebAccs.list, SeenAs, List.forall₂_cons] at hk
  obtain ⟨k1, k2, k3, k4, k5, k6, k7, k8, k9, k10, k11, k12, -⟩ := hk
  have hare : a.Are k := ⟨k1.key, k2.key, k3.key, k4.key, k5.key, k6.key, k7.key, k8.key, k9.key, k10.key, k11.key, k12.key⟩
  obtain ⟨dm, hdm1, hdm2⟩ := h.dstRes
  refine ⟨a, _, ⟨x, y⟩, hl, ?_, hare, hxi, hyi⟩
  simp only [verifyStartRebalance, bind_ok, require_ok, exists_const, checkKeys_ok, checkWritable_ok, checkSigner_ok,
    matchLst_ok, mintProgram_ok, poolReserves_ok, getPool_ok, verifyActive_ok, tokenBalance_ok,
    verifyInputEnabled_ok, List.forall_mem_cons, hare.srcLstMint, hare.dstLstMint]
  refine ⟨hare.list.trans h.listKey, hare.pool.trans h.poolKey, s, ⟨h.srcEntry, h.srcMint⟩, _, h.srcProg, _, h.srcRes, d,
    ⟨h.dstEntry, h.dstMint⟩, _, ⟨dm, hdm1, rfl⟩, _, hdm2, p, h.pool,
    ⟨hare.auth.trans h.auth, hare.pool.trans h.poolKey, hare.list.trans h.listKey, hare.record.trans h.recordKey,
      h.srcMint.symm, h.dstMint.symm, hare.srcRes, hare.dstRes, hare.ixs.trans h.ixKey,
      hare.sys.trans h.sysKey, hare.srcTp, by simp⟩,
    ⟨k2.writable rfl, k3.writable rfl, k4.writable rfl, k7.writable rfl, k8.writable rfl, k9.writable rfl, by simp⟩,
    ⟨k1.signer rfl, by simp⟩, _, ⟨ra, by rw [hare.srcRes]; exact hra, rfl⟩, hmn, _, ⟨da, by rw [hare.dstRes]; exact hda, rfl⟩, hmx,
    ⟨h.notReb, h.notDis⟩, h.inputOk, ⟨x, y⟩, ?_, (), hsucc, rfl⟩
  rw [srcDst_split (tail_len hsm hsa), hx, hy]
  rfl

/-- The controller's accounts after a StartRebalance that leaves the source LST with value `v'`; `v`, `u` are the values before it. -/
def Ctl.started (c : Ctl) (p : PoolState) (i j : Nat) (s d : LstState) (v u v' : Nat) : Ctl :=
  { c with
    pool := some { p with
      totalSolValue := p.totalSolValue - s.solValue + v - d.solValue + u - v + v'
      isRebalancing := 1 }
    lsts := ((c.lsts.set i { s with solValue := v }).set j { d with solValue := u }).set i { s with solValue := v' }
    rebal := some ⟨p.totalSolValue - s.solValue + v - d.solValue + u, j⟩ }

theorem start_live {cfg : Cfg} {L : RatioLib} {env : Env cfg} {tx : TxInfo} {w : World} {k : StartKeys} {i j : Nat} {src dst : Callee}
    {cs cd : AnyCalc} {p : PoolState} {s d : LstState} (h : StartKeysOk cfg w k i j src dst p s d) {accs : List Acc}
    (hseen : SeenAs (k.metas ++ (roMeta src.program :: src.metas.drop 1 ++ roMeta dst.program :: dst.metas.drop 1)) accs)
    (hij : i ≠ j) (hus : cs.Usable) (hud : cd.Usable) (hss : env.Serves L src cs) (hsd : env.Serves L dst cd)
    {m : Mint} {ra da wt : TokenAcc} (hm : w.led.mints k.srcLstMint = some m)
    (hra : IsAcc w.led k.srcPoolReserves k.srcLstTokenProgram k.srcLstMint ra) (hro : ra.owner = cfg.poolState)
    (hda : w.led.tok k.dstPoolReserves = some da)
    (hwt : IsAcc w.led k.withdrawTo k.srcLstTokenProgram k.srcLstMint wt) (hne : k.srcPoolReserves ≠ k.withdrawTo)
    (hru : ra.amount < U64) (hdu : da.amount < U64) (hmp : m.program = k.srcLstTokenProgram)
    {amount mn mx : Nat} (hmn : mn ≤ ra.amount) (hmx : da.amount ≤ mx) (hen : amount ≤ ra.amount) (hroom : wt.amount + amount < U64)
    (hsucc : verifySucceedingEnd cfg tx k.dstLstMint = .ok ())
    {v u : Range} (hv : (cs.calculator L).lstToSol ra.amount = .ok v) (hu : (cd.calculator L).lstToSol da.amount = .ok u)
    (hsv : s.solValue + d.solValue ≤ p.totalSolValue) (hfit1 : p.totalSolValue - s.solValue + v.min < U64)
    (hfit2 : p.totalSolValue - s.solValue + v.min - d.solValue + u.min < U64) :
    processStartRebalance cfg env tx w accs ⟨src.metas.length, i, j, amount, mn, mx⟩ =
      .ok ⟨w.ctl.started p i j s d v.min u.min (cs.f (ra.amount - amount)), w.led.move k.srcPoolReserves k.withdrawTo ra wt amount⟩ := by
  obtain ⟨a, suf, c, hload, hver, hare, hsi, hdi⟩ := verifyStart_live (amount := amount) h hseen hra.tok hda hmn hmx hsucc
  have hli := (List.getElem?_eq_some_iff.1 h.srcEntry).1
  have hlj := (List.getElem?_eq_some_iff.1 h.dstEntry).1
  have hs0 := sync_live (w := w) 0 hss hsi hus hra.tok hru hv h.pool h.srcEntry (by omega) hfit1
  have hs1 := sync_live (w := { w with ctl := w.ctl.synced p i s v.min }) (i := j) (s := d)
    (p := { p with totalSolValue := p.totalSolValue - s.solValue + v.min }) 1 hsd hdi hud hda hdu hu rfl
    (by simp [Ctl.synced, hij, h.dstEntry]) (by simp only; omega) hfit2
  have ht := transfer_live (n := amount) (auth := k.poolState) hm hmp hra hwt (hro.trans h.poolKey.symm) hen hne hroom
  have hend := AnyCalc.lstToSol_down hus (a := ra.amount - amount) (b := ra.amount) (by omega) hv
  have hmono : cs.f (ra.amount - amount) ≤ v.min := by
    have := (cs.conv hus (AnyCalc.answers_of (.inl hv))).fmono (a := ra.amount - amount) (b := ra.amount) (by omega)
    rw [(AnyCalc.is L hus).lstToSol hv]; exact this
  have hr2 := hra.moved (b := wt) (n := amount) hne
  have hs2 := sync_live (w := ⟨(w.ctl.synced p i s v.min).synced { p with totalSolValue := p.totalSolValue - s.solValue + v.min } j d u.min,
      w.led.move k.srcPoolReserves k.withdrawTo ra wt amount⟩) (i := i) (s := { s with solValue := v.min })
    (p := { p with totalSolValue := p.totalSolValue - s.solValue + v.min - d.solValue + u.min }) 2 hss hsi hus hr2.tok
    (by simp only; omega) hend rfl (by simp [Ctl.synced, hij, hij.symm, hli]) (by simp only; omega)
    (by simp only [Range.single]; omega)
  rw [← hare.srcRes] at hs0 hs2 ht
  rw [← hare.dstRes] at hs1
  rw [← hare.withdrawTo] at hs2 ht
  rw [← hare.pool, ← hare.srcTp, ← hare.srcLstMint] at ht
  simp only [processStartRebalance, bind_ok, Prod.exists, require_ok, exists_const, getPool_ok, syncUnchecked_ok, totalSolValue_ok, pure_ok]
  refine ⟨a, suf, hload, c, hver, _, ⟨_, _, hs0⟩, _, ⟨_, _, hs1⟩, _, ⟨_, rfl, rfl⟩, _, ht, _, ⟨_, _, hs2⟩, h.noRec, _, rfl, ?_⟩
  simp only [Ctl.synced, Ctl.started, Range.single, hare.srcRes, hare.withdrawTo]

/-- The accounts of an EndRebalance are those the program will derive. -/
structure EndKeysOk (cfg : Cfg) (w : World) (k : EndKeys) (j : Nat) (dst : Callee) (p : PoolState) (rr : RebalanceRecord) (d : LstState) :
    Prop where
  poolKey : k.poolState = cfg.poolState
  listKey : k.lstStateList = cfg.lstStateList
  recordKey : k.rebalanceRecord = cfg.rebalanceRecord
  pool : w.ctl.pool = some p
  reb : p.isRebalancing ≠ 0
  record : w.ctl.rebal = some rr
  index : rr.dstLstIndex = j
  auth : k.rebalanceAuthority = p.rebalanceAuthority
  dstEntry : w.ctl.lsts[j]? = some d
  dstMint : d.mint = k.dstLstMint
  dstRes : ∃ m, w.led.mints k.dstLstMint = some m ∧ cfg.ata cfg.poolState m.program d.mint d.poolReservesBump = some k.dstPoolReserves
  dstCalc : dst.program = d.solValueCalculator
  dstMetas : ∃ r, dst.metas = roMeta k.dstLstMint :: r

theorem end_live {cfg : Cfg} {L : RatioLib} {env : Env cfg} {w : World} {k : EndKeys} {j : Nat} {dst : Callee}
    {cd : AnyCalc} {p : PoolState} {rr : RebalanceRecord} {d : LstState} (h : EndKeysOk cfg w k j dst p rr d) {accs : List Acc}
    (hseen : SeenAs (k.metas ++ roMeta dst.program :: dst.metas.drop 1) accs) (hud : cd.Usable) (hsd : env.Serves L dst cd)
    {da : TokenAcc} (hda : w.led.tok k.dstPoolReserves = some da) (hdu : da.amount < U64)
    {u : Range} (hu : (cd.calculator L).lstToSol da.amount = .ok u) (hle : d.solValue ≤ p.totalSolValue)
    (hfit : p.totalSolValue - d.solValue + u.min < U64) (hkeep : rr.oldTotalSolValue ≤ p.totalSolValue - d.solValue + u.min) :
    ∃ w', processEndRebalance cfg env w accs = .ok w' := by
  obtain ⟨a, suf, hl, hk, hsuf⟩ := seen_end hseen
  obtain ⟨_, hdm⟩ := h.dstMetas
  obtain rfl := h.index
  obtain ⟨x, hx, hxi⟩ := verifyCalcCpi_live hdm hsuf h.dstEntry h.dstCalc
  simp only [EndKeys.metas, EndRebAccs.list, SeenAs, List.forall₂_cons] at hk
  obtain ⟨k1, k2, k3, k4, k5, k6, -⟩ := hk
  obtain ⟨dm, hdm1, hdm2⟩ := h.dstRes
  have e5 : a.dstLstMint.key = k.dstLstMint := k5.key
  have e6 : a.dstPoolReserves.key = k.dstPoolReserves := k6.key
  have hs := sync_live (w := { w with ctl := { w.ctl with pool := some { p with isRebalancing := 0 } } }) (i := rr.dstLstIndex) (s := d)
    (p := { p with isRebalancing := 0 }) 0 hsd hxi hud hda hdu hu rfl h.dstEntry hle hfit
  rw [← e6] at hs
  rw [← e5] at hx
  apply Exists.intro
  simp only [processEndRebalance, bind_ok, Prod.exists, require_ok, exists_const, checkKeys_ok,
    checkWritable_ok, checkSigner_ok, okOr_ok, getPool_ok, matchLst_ok, mintProgram_ok, poolReserves_ok,
    syncUnchecked_ok, totalSolValue_ok, List.forall_mem_cons, pure_ok]
  exact ⟨a, suf, hl, k2.key.trans h.poolKey, k3.key.trans h.listKey, k4.key.trans h.recordKey, p, h.pool, rr, h.record, d,
    ⟨h.dstEntry, h.dstMint.trans e5.symm⟩, _, ⟨dm, by rw [e5]; exact hdm1, rfl⟩, _, hdm2,
    ⟨k1.key.trans h.auth, k2.key.trans h.poolKey, k3.key.trans h.listKey, k4.key.trans h.recordKey, e5.trans h.dstMint.symm, e6, by simp⟩,
    ⟨k2.writable rfl, k3.writable rfl, k4.writable rfl, by simp⟩, ⟨k1.signer rfl, by simp⟩, by simpa [isTrue] using h.reb, x, hx, _, ⟨_, _, hs⟩, _,
    ⟨_, rfl, rfl⟩, by simpa [Ctl.synced] using hkeep, rfl⟩

end S
