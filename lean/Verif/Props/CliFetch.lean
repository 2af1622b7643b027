import Verif.CliFetch
import Verif.Fixtures
import Verif.Props.JupSystem
import Verif.Props.CliRebalance

/-!
C102: the rebalancing commands work on a cache that shows the chain. C56, C81 and C82 assume that the cache the commands are given mirrors the chain; here it
is shown of the cache the commands themselves make, from one request for the pool's two accounts and one for the accounts of the LSTs rebalanced, in the
deployed system. The stake pool that `rebal-withdraw-sol` quotes the withdrawal from is the one of the second of its own two requests.
-/

set_option autoImplicit false

namespace S

section
variable {J : JupCfg} {L : RatioLib} {list : List SanctumLst} {ch : OnChain} {F : FlatFee} {w : World} {m : AccMap}

/-! ### Proofs -/

theorem updateList_still (hs : Shows J list ch F w m) {S : SPool} (hl : S.lstList.lsts = .ok w.ctl.lsts) :
    (S.updateList J m).1.lstList.lsts = .ok w.ctl.lsts ∧ (S.updateList J m).1.data = S.data := by
  by_cases hb : m J.cfg.lstStateList = none
  · simp only [SPool.updateList, hb]
    exact ⟨hl, trivial⟩
  · exact ⟨updateList_shows hs hb hl, updateList_same_list hs hb hl⟩

theorem updatePool_still (hs : Shows J list ch F w m) {S : SPool} {p : PoolState} (hl : S.lstList.lsts = .ok w.ctl.lsts) (hp : S.pool = .ok p)
    (hwp : w.ctl.pool = some p) : (S.updatePool J m).1.pool = .ok p := by
  unfold SPool.updatePool
  split
  · exact hp
  · rename_i b hb
    obtain ⟨p', hp', hbp⟩ := hs.pool_ok hb
    rw [hwp] at hp'; cases hp'
    simp only [hl, hbp]
    split
    · split <;> (rw [SPool.pool_some rfl]; exact hbp)
    · rw [SPool.pool_some rfl]; exact hbp

/-- A full update leaves the LST list and the pool state of the chain, and changes the slots only by their own update. -/
theorem updateFull_still (hs : Shows J list ch F w m) {S : SPool} {p : PoolState} (hl : S.lstList.lsts = .ok w.ctl.lsts) (hp : S.pool = .ok p)
    (hwp : w.ctl.pool = some p) : (S.updateFull J m).1.lstList.lsts = .ok w.ctl.lsts ∧ (S.updateFull J m).1.pool = .ok p ∧
      (S.updateFull J m).1.data = (S.updateData J m).1.data ∧ (S.updateFull J m).1.epoch = S.epoch := by
  set S1 := (S.updateData J m).1 with e1
  set S2 := (S1.updatePricing J m).1 with e2
  set S3 := (S2.updateList J m).1 with e3
  set S4 := (S3.updatePool J m).1 with e4
  have hT : (S.updateFull J m).1 = (S4.updateSupply J m).1 := rfl
  have l2 : S2.lstList.lsts = .ok w.ctl.lsts := by rw [e2, (updatePricing_keeps J m S1).1]; exact hl
  have p2 : S2.pool = .ok p := by rw [SPool.pool_congr (updatePricing_same J m S1).1, SPool.pool_congr (S := S) (T := S1) rfl]; exact hp
  obtain ⟨l3, d3⟩ := updateList_still hs l2
  have p3 : S3.pool = .ok p := by rw [SPool.pool_congr (updateList_same J m S2).2.1]; exact p2
  have p4 := updatePool_still hs l3 p3 hwp
  rw [hT]
  refine ⟨?_, ?_, ?_, ?_⟩
  · rw [(updateSupply_keeps J m S4).1, (updatePool_keeps J m S3).1]; exact l3
  · rw [SPool.pool_congr (updateSupply_same J m S4).2.1]; exact p4
  · rw [(updateSupply_keeps J m S4).2, (updatePool_keeps J m S3).2, d3, (updatePricing_keeps J m S1).2]
  · rw [(updateSupply_same J m S4).2.2, (updatePool_same J m S3).2, (updateList_same J m S2).2.2.2, (updatePricing_same J m S1).2.2]; rfl

/-- A calculator that held no figures holds those of the chain after an update. -/
theorem KnownCalc.update_fresh (hs : Shows J list ch F w m) {k : KnownCalc} {e : SanctumLst} (he : e ∈ list) (hk : k.Of e)
    (h0 : k = .wsol ∨ k.figures = none) {c : AnyCalc} (hf : (k.update J m).1.figures = some c) : Loaded J ch (k.update J m).1 := by
  unfold KnownCalc.update at hf ⊢
  cases k with
  | wsol => trivial
  | lido o =>
    obtain rfl : o = none := by cases o with | none => rfl | some x => simp [KnownCalc.figures] at h0
    simp only [KnownCalc.toFetch] at hf ⊢
    cases hb : m J.lidoState with
    | none => simp [hb, KnownCalc.figures] at hf
    | some b =>
      simp only [hb] at hf ⊢
      have hd := hs.stakePool _ b (.inl rfl) hb
      cases hl : KnownCalc.load b (.lido none) with
      | error _ => simp [hl, KnownCalc.figures] at hf
      | ok k' =>
        simp only [KnownCalc.load, bind_ok, pure_ok] at hl
        obtain ⟨x, hx, rfl⟩ := hl
        exact ⟨x, rfl, hd ▸ hx⟩
  | marinade o =>
    obtain rfl : o = none := by cases o with | none => rfl | some x => simp [KnownCalc.figures] at h0
    simp only [KnownCalc.toFetch] at hf ⊢
    cases hb : m J.marinadeState with
    | none => simp [hb, KnownCalc.figures] at hf
    | some b =>
      simp only [hb] at hf ⊢
      have hd := hs.stakePool _ b (.inr (.inl rfl)) hb
      cases hl : KnownCalc.load b (.marinade none) with
      | error _ => simp [hl, KnownCalc.figures] at hf
      | ok k' =>
        simp only [KnownCalc.load, bind_ok, pure_ok] at hl
        obtain ⟨x, hx, rfl⟩ := hl
        exact ⟨x, rfl, hd ▸ hx⟩
  | spl kd mt p o =>
    obtain rfl : o = none := by cases o with | none => rfl | some x => simp [KnownCalc.figures] at h0
    simp only [KnownCalc.toFetch] at hf ⊢
    cases hb : m p with
    | none => simp [hb, KnownCalc.figures] at hf
    | some b =>
      simp only [hb] at hf ⊢
      have hd := hs.stakePool _ b (.inr (.inr ⟨e, he, kd, hk.1⟩)) hb
      cases hl : KnownCalc.load b (.spl kd mt p none) with
      | error _ => simp [hl, KnownCalc.figures] at hf
      | ok k' =>
        simp only [KnownCalc.load, bind_ok, Prod.exists, pure_ok, require_ok, exists_const] at hl
        obtain ⟨mt', x, hx, rfl, rfl⟩ := hl
        exact ⟨x, rfl, hd ▸ hx⟩

theorem tryLstData_empty {s : LstState} {d : LstData} (h : tryLstData J list s = some d) : d.reserves = none ∧ (d.solCalc = .wsol ∨ d.solCalc.figures = none) := by
  simp only [tryLstData, Option.bind_eq_bind, Option.bind_eq_some_iff] at h
  obtain ⟨e, -, c, hc, h⟩ := h
  split at h
  · cases h
  · cases h
    refine ⟨rfl, ?_⟩
    cases hp : e.pool <;> rw [hp] at hc <;> cases hc <;> simp [KnownCalc.figures]

theorem fromInit_ok {epoch : Nat} {lb pb : Blob} {S : SPool} (h : SPool.fromInit J list epoch lb pb = .ok S) : ∃ lsts p, lb.lsts = .ok lsts ∧ pb.pool = .ok p ∧
    p.pricingProgram = J.fc.programId ∧ S.lstList = lb ∧ S.poolState = some pb ∧ S.data = lsts.map (tryLstData J list) ∧ S.epoch = epoch := by
  simp only [SPool.fromInit, SPool.fromList, tryPricing, bind_ok, pure_ok, require_ok, exists_const] at h
  obtain ⟨lsts, hl, p, hp, pp, ⟨hpp, -⟩, S', ⟨lsts', hl', rfl⟩, rfl⟩ := h
  rw [hl] at hl'; cases hl'
  exact ⟨lsts, p, hl, hp, hpp, rfl, rfl, rfl, rfl⟩

end

/-! ### The cache -/

section
variable {J : JupCfg} {L : RatioLib} {list : List SanctumLst} {noFee : Pubkey}
  {dist : (J.cfg.programId :: J.fc.programId :: noFee :: J.wsolProgram :: J.poolCfgs.map PoolCfg.programId).Nodup}

/-- In the deployed system, let a rebalancing command fetch the pool's two accounts and then the accounts of the LSTs `mints`, all as they stand. If that gives
it a cache, the cache shows the pool and its list as they are, everything in it agrees with the chain (what C56, C81 and C82 ask for), and for each of the LSTs
`mints` that it knows it holds the balance of the pool's reserves and the figures of the stake pool. -/
theorem C102_cache (hg : GoodList J list) {s₀ : Sys (J.sys noFee dist)} (hf : s₀.Fresh) {h : List (SysTx (J.sys noFee dist))} {s : Sys (J.sys noFee dist)}
    (hs : runSystem L s₀ h = s) {o : Outside (J.sys noFee dist)} (ho : s.InOrder L list o) (hr : ListRight J list o.chain s.world)
    {m₀ : AccMap} (h₀ : Shows J list o.chain (s.flat L) s.world m₀) {lb pb : Blob} (hlb : m₀ J.cfg.lstStateList = some lb) (hpb : m₀ J.cfg.poolState = some pb)
    {mints extra : List Pubkey} {fetch : List Pubkey → AccMap} (ha : ∀ S₀ asked, SPool.fromInit J list o.chain.epoch lb pb = .ok S₀ →
      asked = S₀.toFetchLsts J (fun s => decide (s.mint ∈ mints)) ++ extra → Answers J list o.chain (s.flat L) s.world asked (fetch asked)) {S : SPool}
    (hS : rebalCache J list o.chain.epoch lb pb mints extra fetch = .ok S) :
    Mirrors J L (s.env L o) S s.world ∧ S.FromList J list ∧ S.lstList.lsts = .ok s.world.ctl.lsts ∧ (∃ p, S.pool = .ok p ∧ s.world.ctl.pool = some p) ∧
      ∀ (i : Nat) x d, s.world.ctl.lsts[i]? = some x → S.data[i]? = some (some d) → x.mint ∈ mints →
        (∃ c, d.solCalc.figures = some c ∧ ChainFigures J list o.chain x.mint c) ∧
        ∃ mt res ra, s.world.led.mints x.mint = some mt ∧ J.cfg.ata J.cfg.poolState mt.program x.mint x.poolReservesBump = some res ∧
          s.world.led.tok res = some ra ∧ d.reserves = some ra.amount := by
  have hinv : Inv J.cfg s.world := (hs ▸ C65_reachable hf h : Reachable J.cfg L s.world).inv
  simp only [rebalCache, bind_ok, pure_ok, exists_const] at hS
  obtain ⟨S₀, hinit, ⟨⟩, hok, rfl⟩ := hS
  obtain ⟨lsts, p, hl, hp, hpp, e1, e2, e3, e4⟩ := fromInit_ok hinit
  have hl' := h₀.lsts_ok hlb
  rw [hl] at hl'; cases hl'
  obtain ⟨p', hwp, hp'⟩ := h₀.pool_ok hpb
  rw [hp] at hp'; cases hp'
  have hl0 : S₀.lstList.lsts = .ok s.world.ctl.lsts := by rw [e1]; exact hl
  have hp0 : S₀.pool = .ok p := by rw [SPool.pool_some e2]; exact hp
  have hc0 : CacheInv J list S₀ := JupInit.inv hg (.init hinit)
  generalize hask : S₀.toFetchLsts J (fun s => decide (s.mint ∈ mints)) ++ extra = asked at hok ⊢
  have hm := ha S₀ asked hinit hask.symm
  generalize fetch asked = m at hok hm ⊢
  obtain ⟨tl, tp, td, te⟩ := updateFull_still hm.toShows hl0 hp0 hwp
  have hc : CacheInv J list (S₀.updateFull J m).1 := JupOp.run_inv (.full m) hc0
  generalize hT : (S₀.updateFull J m).1 = T at hc tl tp td te ⊢
  have hok1 : (S₀.updateData J m).2 = .ok () := by
    have : (S₀.updateFull J m).2 = .ok () := hok
    simp only [SPool.updateFull] at this
    exact (andR_ok.1 (andR_ok.1 (andR_ok.1 (andR_ok.1 this).1).1).1).1
  -- what an update leaves in a slot
  have hslot : ∀ (i : Nat) x d', s.world.ctl.lsts[i]? = some x → T.data[i]? = some (some d') → ∃ d, tryLstData J list x = some d ∧ S₀.data[i]? = some (some d) ∧
      d'.solCalc = (d.solCalc.update J m).1 ∧ d'.reserves = (d.fetchReserves J m x).1 ∧ d'.tokenProgram = d.tokenProgram := by
    intro i x d' hx hd'
    rw [td, updateData_get] at hd'
    obtain ⟨od, hod, hd'⟩ := Option.map_eq_some_iff.1 hd'
    obtain ⟨d, rfl, -⟩ := updateSlot_some J list m S₀ i hd'
    have hod' := hod
    rw [e3, List.getElem?_map, hx] at hod'
    simp only [Option.map_some, Option.some.injEq] at hod'
    simp only [SPool.updateSlot, hl0, hx, Option.some.injEq] at hd'
    subst hd'
    exact ⟨d, hod', hod, rfl, rfl, rfl⟩
  have hfig : ∀ (i : Nat) x d c, s.world.ctl.lsts[i]? = some x → T.data[i]? = some (some d) → d.solCalc.figures = some c →
      ChainFigures J list o.chain x.mint c := by
    intro i x d' c hx hd' hfc
    obtain ⟨d, htry, -, hk, -, -⟩ := hslot i x d' hx hd'
    obtain ⟨e, hfind, hmint, -, -, hof⟩ := tryLstData_some hg htry
    obtain ⟨-, hempty⟩ := tryLstData_empty htry
    rw [hk] at hfc
    have hload := KnownCalc.update_fresh hm.toShows (List.mem_of_find?_eq_some hfind) hof hempty hfc
    obtain ⟨u1, -, u3⟩ := KnownCalc.update_same J m d.solCalc
    have := hload.figures (e := e) (by rw [u1, hmint]; exact hfind) (u3 e hof) hfc
    rwa [u1, hmint] at this
  have hprog : ∀ (i : Nat) x d mt, s.world.ctl.lsts[i]? = some x → T.data[i]? = some (some d) → s.world.led.mints x.mint = some mt →
      d.tokenProgram = mt.program := by
    intro i x d' mt hx hd' hmt
    obtain ⟨d, htry, -, -, -, ht⟩ := hslot i x d' hx hd'
    obtain ⟨e, hfind, -, -, hte, -⟩ := tryLstData_some hg htry
    have hem : e.mint = x.mint := by simpa using List.find?_some hfind
    rw [ht, hte]; exact (hr.program e (List.mem_of_find?_eq_some hfind) mt (hem ▸ hmt)).symm
  refine ⟨⟨?_, ?_, ?_, hc.aligned, hprog, sys_serves ho hc tl (by rw [te, e4]) hfig⟩, hc.from_list, tl, ⟨p, tp, hwp⟩, ?_⟩
  · intro q hq; rw [tp] at hq; cases hq; exact hwp
  · intro l hq; rw [tl] at hq; cases hq; rfl
  · intro i x d' n mt k hx hd' hn hmt hk
    obtain ⟨d, htry, -, -, hres, ht⟩ := hslot i x d' hx hd'
    obtain ⟨hnone, -⟩ := tryLstData_empty htry
    have hpr : d.tokenProgram = mt.program := ht ▸ hprog i x d' mt hx hd' hmt
    have hkey : poolReserves J.cfg x d.tokenProgram = .ok k := by simp [poolReserves, okOr_ok, hpr, hk]
    obtain ⟨mt', res, acc, ra, fa, hacc⟩ := hinv.accs x (List.mem_of_getElem? hx)
    have := hacc.mint; rw [hmt] at this; cases this
    have := hacc.res_key; rw [hk] at this; cases this
    rw [hres] at hn
    simp only [LstData.fetchReserves, hkey] at hn
    cases hb : m k with
    | none => simp [hb, hnone] at hn
    | some b =>
      have hbal := hm.token k ra b hacc.res hb
      simp only [hb, hbal, Option.some.injEq] at hn
      simp [bal, hacc.res, hn]
  · intro i x d' hx hd' hmem
    have hmask : ∀ d, S₀.data[i]? = some (some d) → ∀ k ∈ lstToFetch J x (some d), k ∈ asked := by
      intro d hd k hk
      rw [← hask]
      refine List.mem_append_left _ ?_
      simp only [SPool.toFetchLsts, hl0]
      refine List.mem_flatMap.2 ⟨(x, some d), List.mem_filter.2 ⟨?_, by simpa using hmem⟩, hk⟩
      exact List.mem_iff_getElem?.2 ⟨i, by rw [List.getElem?_zip_eq_some]; exact ⟨hx, hd⟩⟩
    obtain ⟨e, hel, hof, hload, -, hmint, hfind, hrest⟩ := slot_update hm hc0 hinv hr hl0 hok1 hx (by rw [← td]; exact hd') hmask
    refine ⟨?_, hrest⟩
    have : ∃ c, d'.solCalc.figures = some c := by
      cases hk : d'.solCalc with
      | wsol => exact ⟨_, rfl⟩
      | lido c => rw [hk] at hload; obtain ⟨y, rfl, -⟩ := hload; exact ⟨_, rfl⟩
      | marinade c => rw [hk] at hload; obtain ⟨y, rfl, -⟩ := hload; exact ⟨_, rfl⟩
      | spl a b c' c => rw [hk] at hload; obtain ⟨y, rfl, -⟩ := hload; exact ⟨_, rfl⟩
    obtain ⟨c, hc'⟩ := this
    exact ⟨c, hc', hfig i x d' c hx hd' hc'⟩

/-- The commands refuse a pool whose pricing program is not the flat-fee program, such as the one with no fees: they make their cache with the library, which
knows no other. -/
theorem C102_refused {lb pb : Blob} {p : PoolState} (hp : pb.pool = .ok p) (hne : p.pricingProgram ≠ J.fc.programId) {epoch : Nat}
    {mints extra : List Pubkey} {fetch : List Pubkey → AccMap} : ¬ ∃ S, rebalCache J list epoch lb pb mints extra fetch = .ok S := by
  rintro ⟨S, hS⟩
  simp only [rebalCache, bind_ok, pure_ok, exists_const] at hS
  obtain ⟨S₀, hinit, -⟩ := hS
  obtain ⟨_, p', -, hp', hpp, -⟩ := fromInit_ok hinit
  rw [hp] at hp'; cases hp'
  exact hne hpp

/-! ### The stake pool SOL is withdrawn from -/

/-- An answer to a request, from a chain whose accounts are `c`. -/
def solAnswer (c : LamMap) (asked : List Pubkey) : LamMap := fun k => if k ∈ asked then c k else none

/-- The bytes are an SPL stake pool with reserve account `res`, figures `x` and the SOL withdrawal fee `num / den`. -/
def SolPoolBytes (b : List UInt8) (res : Pubkey) (x : SplCalc) (num den : Nat) : Prop :=
  ∃ vs rest, List.Forall₂ Fld.Has splLayout.flds vs ∧ b = encodeFields splLayout.flds vs ++ rest ∧ splLayout.get vs .reserveStake = res ∧
    splLayout.get vs .lastUpdateEpoch = x.lastUpdateEpoch ∧ splLayout.get vs .totalLamports = x.totalLamports ∧
    splLayout.get vs .poolTokenSupply = x.poolTokenSupply ∧ splLayout.get vs .withdrawalFeeNumerator = x.feeNum ∧
    splLayout.get vs .withdrawalFeeDenominator = x.feeDenom ∧ splLayout.get vs .solWithdrawalFeeNumerator = num ∧ splLayout.get vs .solWithdrawalFeeDenominator = den

/-- The reserve account that the stake pool `addr` names in the first answer; all zeroes if the pool is not in it, or not readable. -/
def NamedReserve (m : LamMap) (addr res : Pubkey) : Prop :=
  (∃ b l x num den, m addr = some (b, l) ∧ SolPoolBytes b res x num den) ∨
  (res = 0 ∧ ∀ b l r x num den, m addr = some (b, l) → ¬ SolPoolBytes b r x num den)

theorem readSolPool_ok {b : List UInt8} {res : Pubkey} {x : SplCalc} {num den : Nat} : readSolPool b = .ok (res, x, num, den) ↔ SolPoolBytes b res x num den := by
  unfold readSolPool SolPoolBytes
  cases h : decodeFields splLayout.flds b with
  | error e =>
    constructor
    · intro h'; cases h'
    · rintro ⟨vs, rest, hv, hb, _⟩
      rw [decodeFields_ok.2 ⟨hv, hb⟩] at h; cases h
  | ok y =>
    obtain ⟨vs, r⟩ := y
    simp only [Except.ok.injEq, Prod.mk.injEq]
    constructor
    · rintro ⟨rfl, rfl, rfl, rfl⟩
      obtain ⟨hv, hb⟩ := decodeFields_ok.1 h
      exact ⟨vs, r, hv, hb, rfl, rfl, rfl, rfl, rfl, rfl, rfl, rfl⟩
    · rintro ⟨vs', rest, hv, hb, h1, h2, h3, h4, h5, h6, h7, h8⟩
      have := decodeFields_ok.2 ⟨hv, hb⟩
      rw [h] at this; injection this with this; injection this with this _; subst this
      refine ⟨h1, ?_, h7, h8⟩
      cases x; simp only at h2 h3 h4 h5 h6; subst h2; subst h3; subst h4; subst h5; subst h6; rfl

/-- `NamedReserve` with the reading function. -/
def NamedBy (m : LamMap) (addr res : Pubkey) : Prop :=
  (∃ b l x, m addr = some (b, l) ∧ readSolPool b = .ok (res, x)) ∨ (res = 0 ∧ ∀ b l y, m addr = some (b, l) → readSolPool b ≠ .ok y)

theorem namedReserve_iff {m : LamMap} {addr res : Pubkey} : NamedReserve m addr res ↔ NamedBy m addr res := by
  simp only [NamedReserve, NamedBy, ← readSolPool_ok, Prod.exists, Prod.forall, ne_eq]

theorem solPool_loads {kind : SplKind} {addr : Pubkey} {first c : LamMap} {q : SolPool} :
    loadSolPool (.spl kind addr) first (solAnswer c) = .ok q ↔
      ∃ b l res x num den rb lam, c addr = some (b, l) ∧ readSolPool b = .ok (res, x, num, den) ∧ c res = some (rb, lam) ∧
        (res = addr ∨ NamedBy first addr res) ∧ q = ⟨x, num, den, lam⟩ := by
  -- what the first update leaves
  have h1 : ∃ r q₁, ((⟨addr, 0, ⟨⟨0, 0, 0, 0, 0⟩, 0, 0, 0⟩⟩ : SolLoader).update first).1 = ⟨addr, r, q₁⟩ ∧ ∀ res, NamedBy first addr res ↔ res = r := by
    unfold SolLoader.update NamedBy
    cases hm : first addr with
    | none => exact ⟨0, _, rfl, fun res => by simp⟩
    | some v =>
      obtain ⟨b, l⟩ := v
      cases hr : readSolPool b with
      | error e =>
        simp only [hr]
        refine ⟨0, _, rfl, fun res => ⟨?_, fun h0 => .inr ⟨h0, ?_⟩⟩⟩
        · rintro (⟨b', l', x, hb, hx⟩ | ⟨h0, -⟩)
          · cases hb; rw [hr] at hx; cases hx
          · exact h0
        · intro b' l' y hb hy
          cases hb; rw [hr] at hy; cases hy
      | ok y =>
        obtain ⟨r, x, num, den⟩ := y
        simp only [hr]
        cases first r with
        | none => exact ⟨r, _, rfl, fun res => by simp [hr, eq_comm]⟩
        | some v => exact ⟨r, _, rfl, fun res => by simp [hr, eq_comm]⟩
  obtain ⟨r, q₁, he, hnr⟩ := h1
  simp only [loadSolPool, SolLoader.new, bind_ok, pure_ok, Except.ok.injEq, exists_eq_left', exists_const, hnr]
  rw [he]
  simp only [SolLoader.toFetch, SolLoader.update, solAnswer, List.mem_cons, true_or, if_true, List.not_mem_nil, or_false]
  cases hc : c addr with
  | none => simp
  | some v =>
    obtain ⟨b, l⟩ := v
    cases hr : readSolPool b with
    | error e => simp [hr]
    | ok y =>
      obtain ⟨res, x, num, den⟩ := y
      simp only [hr]
      by_cases hres : res = addr ∨ res = r
      · simp only [hres, if_true]
        cases hcr : c res with
        | none => simp [hr, hcr]
        | some v => 
          obtain ⟨rb, lam⟩ := v
          constructor
          · rintro ⟨-, -, rfl⟩; exact ⟨b, l, res, x, num, den, rb, lam, rfl, hr, hcr, hres, rfl⟩
          · rintro ⟨b', l', res', x', num', den', rb', lam', hb, hrd, hcr', -, rfl⟩
            cases hb
            rw [hr] at hrd; cases hrd
            rw [hcr] at hcr'; cases hcr'
            exact ⟨(), rfl, rfl⟩
      · simp [hr, hres]

/-- Exactly when the stake pool loads: at the time of the second request it is readable and its reserve account exists, and that is the reserve account it
named in the first answer (or the pool itself). What it is quoted from is then the stake pool and its reserves as they stand at the second request. -/
theorem C102_solPool {kind : SplKind} {addr : Pubkey} {first c : LamMap} {q : SolPool} :
    loadSolPool (.spl kind addr) first (solAnswer c) = .ok q ↔
      ∃ b l res x num den rb lam, c addr = some (b, l) ∧ SolPoolBytes b res x num den ∧ c res = some (rb, lam) ∧
        (res = addr ∨ NamedReserve first addr res) ∧ q = ⟨x, num, den, lam⟩ := by
  simp only [solPool_loads, readSolPool_ok, namedReserve_iff]

/-- So if the stake pool moved to another reserve account between the two requests, the command stops. -/
theorem C102_moved {kind : SplKind} {addr : Pubkey} {first c : LamMap} {b₁ b₂ : List UInt8} {l₁ l₂ r₁ r₂ n₁ n₂ d₁ d₂ : Nat} {x₁ x₂ : SplCalc}
    (h1 : first addr = some (b₁, l₁)) (hr1 : SolPoolBytes b₁ r₁ x₁ n₁ d₁) (h2 : c addr = some (b₂, l₂)) (hr2 : SolPoolBytes b₂ r₂ x₂ n₂ d₂)
    (hne : r₂ ≠ r₁) (hna : r₂ ≠ addr) : ¬ ∃ q, loadSolPool (.spl kind addr) first (solAnswer c) = .ok q := by
  rw [← readSolPool_ok] at hr1 hr2
  rintro ⟨q, hq⟩
  obtain ⟨b, l, res, x, num, den, rb, lam, hc, hrd, -, hor, -⟩ := solPool_loads.1 hq
  rw [h2] at hc; cases hc
  rw [hr2] at hrd; cases hrd
  rcases hor with h | ⟨b, l, y, hb, hy⟩ | ⟨-, hno⟩
  · exact hna h
  · rw [h1] at hb; cases hb; rw [hr1] at hy; cases hy; exact hne rfl
  · exact hno _ _ _ h1 hr1

/-- The first request has the stake pool, if the pool lists the LST with the calculator of its stake pool program. -/
theorem C102_asked {epoch : Nat} {lb pb : Blob} {S : SPool} (h : SPool.fromInit J list epoch lb pb = .ok S) {lsts : List LstState} (hl : lb.lsts = .ok lsts)
    {x : LstState} (hx : x ∈ lsts) {e : SanctumLst} (he : Listed list e) (hm : x.mint = e.mint) {kind : SplKind} {addr : Pubkey} (hp : e.pool = .spl kind addr)
    (hc : x.solValueCalculator = (J.spl kind).programId) {pred : LstState → Bool} (hpr : pred x = true) : addr ∈ S.toFetchLsts J pred := by
  obtain ⟨lsts', _, hl', -, -, e1, -, e3, -⟩ := fromInit_ok h
  rw [hl] at hl'; cases hl'
  have htry : tryLstData J list x = some ⟨.spl kind x.mint addr none, none, e.tokenProgram⟩ := by
    have hfind : list.find? (fun y => y.mint = x.mint) = some e := by rw [hm]; exact he
    have : KnownCalc.programId J (.spl kind e.mint addr none) = (J.spl kind).programId := rfl
    simp [tryLstData, hfind, hp, PoolInfo.calculator, hc, KnownCalc.programId]
  simp only [SPool.toFetchLsts, e1, hl]
  refine List.mem_flatMap.2 ⟨(x, some ⟨.spl kind x.mint addr none, none, e.tokenProgram⟩), List.mem_filter.2 ⟨?_, hpr⟩, ?_⟩
  · obtain ⟨i, hi⟩ := List.mem_iff_getElem?.1 hx
    refine List.mem_iff_getElem?.2 ⟨i, ?_⟩
    rw [List.getElem?_zip_eq_some]
    exact ⟨hi, by rw [e3, List.getElem?_map, hi]; simp [htry]⟩
  · simp [lstToFetch, KnownCalc.toFetch]

end

/-! ### Not vacuous -/

namespace Ex

/-- The list and the pool state of the chain after `jhist`, as the first request brings them. -/
def kl : Blob := ⟨8, (bytes (jat 12).world.ctl).lsts⟩
def kp : Blob := ⟨8, (bytes (jat 12).world.ctl).pool⟩
def k0 : SPool := (SPool.fromInit rjup jupList 0 kl kp).toOption.getD ⟨⟨0, []⟩, none, none, none, [], 0⟩
/-- The cache of a rebalance between tokens 22 and 21. -/
def kS : SPool := (rebalCache rjup jupList 0 kl kp [22, 21] [] (rfetch (jat 12).world)).toOption.getD ⟨⟨0, []⟩, none, none, none, [], 0⟩

theorem k0_eq : SPool.fromInit rjup jupList 0 kl kp = .ok k0 := toOption_ok (by decide +kernel)
theorem kS_eq : rebalCache rjup jupList 0 kl kp [22, 21] [] (rfetch (jat 12).world) = .ok kS := toOption_ok (by decide +kernel)

theorem kshows : Shows rjup jupList rch ((jat 12).flat .ex) (jat 12).world (rfetch (jat 12).world [1, 2]) :=
  (ranswersF jstate jfees jrange12 (by decide +kernel) (by decide +kernel)).toShows

theorem kanswers : Answers rjup jupList rch ((jat 12).flat .ex) (jat 12).world (k0.toFetchLsts rjup (fun s => decide (s.mint ∈ [22, 21])) ++ [])
    (rfetch (jat 12).world (k0.toFetchLsts rjup (fun s => decide (s.mint ∈ [22, 21])) ++ [])) :=
  ranswersF jstate jfees jrange12 (by decide +kernel) (by decide +kernel)

/-- The request names the Lido account and the pool's two reserve accounts. -/
example : k0.toFetchLsts rjup (fun s => decide (s.mint ∈ [22, 21])) = [202602, 700, 243065] := by decide +kernel

theorem kans (S₀ : SPool) (asked : List Pubkey) (h0 : SPool.fromInit rjup jupList rch.epoch kl kp = .ok S₀)
    (ha : asked = S₀.toFetchLsts rjup (fun s => decide (s.mint ∈ [22, 21])) ++ []) :
    Answers rjup jupList rch ((jat 12).flat .ex) (jat 12).world asked (rfetch (jat 12).world asked) := by
  have e : S₀ = k0 := Except.ok.inj (h0.symm.trans k0_eq)
  rw [ha, e]
  exact kanswers

theorem kmirrors : Mirrors rjup .ex ((jat 12).env .ex jout) kS (jat 12).world ∧ kS.FromList rjup jupList := by
  obtain ⟨a, b, -⟩ := C102_cache (J := rjup) (L := .ex) (list := jupList) (noFee := 800) (dist := jdist) (s₀ := jsys0) (h := jhist.take 12) (s := jat 12)
    (o := jout) jupList_good jsys0_fresh jrun jorder jlist_right kshows (lb := kl) (pb := kp) (by decide +kernel) (by decide +kernel)
    (mints := [22, 21]) (extra := []) (fetch := rfetch (jat 12).world) kans kS_eq
  exact ⟨a, b⟩

/-- It has what the rebalance needs, and nothing of the other accounts (the LP supply and the fees were not asked for). -/
example : kS.data = [some ⟨.wsol, some 33000, 8⟩, some ⟨.lido (some ⟨0, 2, 3⟩), some 18004, 8⟩] ∧ kS.lpSupply = none := by decide +kernel

/-- Asked for token 22 alone, the balance of the other is not known. -/
example : ((rebalCache rjup jupList 0 kl kp [22] [] (rfetch (jat 12).world)).toOption.map SPool.data)
    = some [some ⟨.wsol, none, 8⟩, some ⟨.lido (some ⟨0, 2, 3⟩), some 18004, 8⟩] := by decide +kernel

/-- The stake pool of jitoSOL, with 5 SOL in its reserve account, whose address it holds. -/
def jitoReserve : Pubkey := ((readSolPool Fix.jitoPool.2.2).toOption.map Prod.fst).getD 0
def solChain (lam : Nat) : LamMap := fun k => if k = 900 then some (Fix.jitoPool.2.2, 7) else if k = jitoReserve then some ([], lam) else none

example : jitoReserve ≠ 0 ∧ jitoReserve ≠ 900 := by decide +kernel

/-- The first answer has only the stake pool; the second has both, and the reserves are those of the second. -/
example : (loadSolPool (.spl .spl 900) (solAnswer (solChain 4000000000) [900, 243065]) (solAnswer (solChain 5000000000))).toOption.map SolPool.reserveLamports
    = some 5000000000 := by decide +kernel
/-- Without the stake pool in the first answer, it does not load. -/
example : (loadSolPool (.spl .spl 900) (solAnswer (solChain 4000000000) [243065]) (solAnswer (solChain 5000000000))).toOption = none := by decide +kernel

end Ex

end S
