import Verif.Props.System
import Verif.Props.FlatCliView
import Verif.Props.Exit
import Verif.Props.Payout
import Verif.Props.Slippage
/-
The programs of the repository answer the controller when they are in working order. Used by C88 and C89.
-/
set_option autoImplicit false
namespace S
variable {sc : SysCfg} {L : RatioLib}

/-- A list of accounts as the program sees them has the same keys. -/
theorem SeenAs.keys {as bs : List Acc} (h : SeenAs as bs) : bs.map Acc.key = as.map Acc.key := by
  induction h with
  | nil => rfl
  | cons h _ ih => simp [ih, h.key]

theorem SeenAs.conversion {pc : PoolCfg} {mint pool pd : Pubkey} {ms : List Acc}
    (h : SeenAs [roMeta mint, roMeta pc.stateId, roMeta pool, roMeta pc.poolProgram, roMeta pd] ms) : ConversionAccs pc ms mint pool pd := by
  obtain ⟨x1, l1, rfl, e1, h⟩ := h.cons_inv
  obtain ⟨x2, l2, rfl, e2, h⟩ := h.cons_inv
  obtain ⟨x3, l3, rfl, e3, h⟩ := h.cons_inv
  obtain ⟨x4, l4, rfl, e4, h⟩ := h.cons_inv
  obtain ⟨x5, l5, rfl, e5, h⟩ := h.cons_inv
  exact ⟨x1, x2, x3, x4, x5, l5, rfl, e1.key, e2.key, e3.key, e4.key, e5.key⟩

theorem Sys.asked_pool (s : Sys sc) (o : Outside sc) {pc : PoolCfg} (hpc : pc ∈ sc.pools) {mint pool pd : Pubkey} {c : AnyCalc} {st : CalcState}
    (hu : UsablePool pc o.chain pool mint c) (hc : PoolCode pc o.chain pd) (hst : s.calc L pc = some st) (hd : DeployedAt o.chain pd st.lastUpgradeSlot)
    {ms : List Acc} (hm : ConversionAccs pc ms mint pool pd) {q : CalcReq} {r : Range} (hr : c.reply L q = .ok r) (n : Nat) (w : World) :
    (s.env L o).askCalc n w pc.programId ms q = .ok (r, w.led) := by
  have hv : verifyLstSol pc o.chain (s.calc L pc) ms = .ok c := verifyLstSol_iff.2 ⟨mint, pool, pd, st, hm, hu, hc, hst, hd⟩
  have hp : calcProcess L pc o.chain (s.calc L pc) ms q.asIx = .ok (s.calc L pc, some r) := by
    cases q with
    | lstToSol n =>
      simp only [CalcReq.asIx, calcProcess, bind_ok, pure_ok, Prod.mk.injEq, Option.some.injEq]
      exact ⟨c, hv, r, hr, trivial, rfl⟩
    | solToLst n =>
      simp only [CalcReq.asIx, calcProcess, bind_ok, pure_ok, Prod.mk.injEq, Option.some.injEq]
      exact ⟨c, hv, r, hr, trivial, rfl⟩
  simp only [Sys.env, Sys.answerCalc, if_neg (sc.pool_ne_wsol hpc), sc.find_pool hpc, hp]

theorem Sys.asked_wsol (s : Sys sc) (o : Outside sc) {ms : List Acc} (hm : ms.head?.map Acc.key = some sc.wsolMint) {q : CalcReq} {r : Range}
    (hr : AnyCalc.wsol.reply L q = .ok r) (n : Nat) (w : World) : (s.env L o).askCalc n w sc.wsolCalc ms q = .ok (r, w.led) := by
  cases ms with
  | nil => cases hm
  | cons a l =>
    have hk : a.key = sc.wsolMint := by simpa using hm
    have hx : wsolAnswer sc.wsolMint (a :: l) q = .ok r := by
      simp only [wsolAnswer, bind_ok]
      exact ⟨(), checkKeys_ok.2 (by simpa using hk), by cases q <;> exact hr⟩
    simp only [Sys.env, Sys.answerCalc, if_true, hx, Except.map]

/-- A transaction of one instruction of the controller. -/
theorem SysTx.run_single {s : Sys sc} {o : Outside sc} {accs : List Acc} {data : List UInt8} {w' : World} (hs : signersOk sc.cfg accs)
    (h : processInstruction sc.cfg L (s.env L o) ⟨[⟨sc.cfg.programId, accs, data⟩], 0⟩ s.world sc.cfg.programId accs data = .ok w') :
    SysTx.run L s [.controller o accs data] = .ok { s with world := w' } := by
  simp only [SysTx.run, runSysSteps, SysStep.actions, runSysActions, SysAction.run, Call.run, bind_ok, List.map_cons, List.map_nil, SysStep.top, pure_ok]
  exact ⟨_, ⟨_, ⟨w', ⟨(), require_ok.2 hs, h⟩, rfl⟩, rfl⟩, rfl⟩

/-! ### What the holder sees of a redemption built by the client library -/

theorem redeem_seen {cfg : Cfg} {env : Env cfg} (hq : env.Quiet) {p : PoolState} {lsts : List LstState} {r : LiqRequest} {amount minOut : Nat} {ix : TopIx}
    (hix : removeLiquidityByMint cfg p lsts r amount minOut = .ok ix) (ha : amount < U64) (hm : minOut < U64) {accs : List Acc} (hseen : SeenAs ix.accs accs) {tx : TxInfo}
    {w w' : World} (hinv : Inv cfg w) (h : processInstruction cfg L env tx w ix.program accs ix.data = .ok w') {ul lp : TokenAcc} {m m' : Pubkey}
    (hul : Wallet cfg w.led r.userLst m ul) (hlp : Wallet cfg w.led r.userLp m' lp) (hne : m ≠ m') :
    bal w'.led r.userLp + amount = bal w.led r.userLp ∧ bal w.led r.userLst + minOut ≤ bal w'.led r.userLst := by
  simp only [removeLiquidityByMint, resolveLiq, bind_ok, Prod.exists, pure_ok, Prod.mk.injEq, removeLiquidityIx, indexToU32_ok, extendOne_ok] at hix
  obtain ⟨k, i, c, pr, ⟨i', s, hfind, rk, hrk, ak, hak, rfl, rfl, rfl, rfl⟩, j, ⟨hj, rfl⟩, a1, n1, ⟨hn1, rfl, rfl⟩, a2, n2, ⟨hn2, rfl, rfl⟩, rfl⟩ := hix
  rw [overwrite_same (encode_length_remove _ _)] at h
  have hdec := C38_roundtrip (.removeLiquidity ⟨r.calcMetas.length, j, amount, minOut⟩) (by
    simp only [Ix.Wf]; exact ⟨by omega, by omega, by unfold U64 at *; omega, by unfold U64 at *; omega⟩)
  rw [processInstruction_of_decode L env tx w accs hdec] at h
  obtain ⟨out, fee, p', s', signer, userLst, userLp, feeAcc, res, hpar, hb, hslip⟩ := C77_removeLiquidity hq h
  have hmin : minOut ≤ out := by
    have := hslip minOut
    by_contra hcon
    rw [if_neg hcon] at this
    exact absurd (h.symm.trans this) (by simp)
  have hkeys := hseen.keys
  have k2 : userLst.key = r.userLst := by
    have := congrArg (fun l => l[2]?) hkeys
    simp only [List.getElem?_map, hpar.pos2] at this
    simpa [LiqKeys.metas, wrMeta] using this
  have k3 : userLp.key = r.userLp := by
    have := congrArg (fun l => l[3]?) hkeys
    simp only [List.getElem?_map, hpar.pos3] at this
    simpa [LiqKeys.metas, wrMeta] using this
  obtain ⟨m₁, rk', ak', ra, fa, la⟩ := hinv.accs s' (List.mem_of_getElem? hpar.entry)
  obtain ⟨m₂, e1, e2, e3⟩ := hpar.derived
  obtain rfl : m₂ = m₁ := Option.some.inj (e1.symm.trans la.mint)
  obtain rfl : res.key = rk' := Option.some.inj (e2.symm.trans la.res_key)
  obtain rfl : feeAcc.key = ak' := Option.some.inj (e3.symm.trans la.acc_key)
  have n1 : r.userLst ≠ res.key := by
    intro e; have := la.res; rw [← e, hul.tok] at this; cases this; exact hul.notPool la.ra_owner
  have n2 : r.userLst ≠ feeAcc.key := by
    intro e; have := la.acc; rw [← e, hul.tok] at this; cases this; exact hul.notFees la.fa_owner
  have n3 : r.userLp ≠ res.key := by
    intro e; have := la.res; rw [← e, hlp.tok] at this; cases this; exact hlp.notPool la.ra_owner
  have n4 : r.userLp ≠ feeAcc.key := by
    intro e; have := la.acc; rw [← e, hlp.tok] at this; cases this; exact hlp.notFees la.fa_owner
  have n5 : r.userLp ≠ r.userLst := by
    intro e; have := hul.tok; rw [← e, hlp.tok] at this; cases this; exact hne (hul.mint.symm.trans hlp.mint)
  have b1 := hb r.userLp
  have b2 := hb r.userLst
  rw [k2, k3] at b1 b2
  simp only [only, n5, n5.symm, n1, n2, n3, n4, if_true, if_false] at b1 b2
  omega

end S
