import Verif.Props.LpPrice
/-
C55: the value recorded for an LST that an instruction trades, syncs or rebalances is its calculator's answer for the reserves held at the end.
-/
set_option autoImplicit false
namespace S

/-! ### Specification -/

/-- Indices of the LSTs whose reserves the instruction can change or whose value it is to record. -/
def Ix.lsts (w : World) : Ix → List Nat
  | .syncSolValue i => [i]
  | .swapExactIn a => [a.srcLstIndex, a.dstLstIndex]
  | .swapExactOut a => [a.srcLstIndex, a.dstLstIndex]
  | .addLiquidity a => [a.lstIndex]
  | .removeLiquidity a => [a.lstIndex]
  | .setSolValueCalculator i => [i]
  | .startRebalance a => [a.srcLstIndex, a.dstLstIndex]
  | .endRebalance => w.ctl.rebal.elim [] fun r => [r.dstLstIndex]
  | _ => []

/-- The entry at index `j` records the lower bound that its calculator program answered, in a call made during the instruction about the LST's
mint, for exactly the amount its reserves hold. -/
def RecordedAt {cfg : Cfg} (env : Env cfg) (w : World) (j : Nat) : Prop :=
  ∃ s k, w.ctl.lsts[j]? = some s ∧ IsReserves cfg w s k ∧ ∃ n w₀ rest r l,
    env.askCalc n w₀ s.solValueCalculator (⟨s.mint, false, false⟩ :: rest) (.lstToSol (bal w.led k)) = .ok (r, l) ∧ s.solValue = r.min

/-! ### Proofs -/

section
variable {cfg : Cfg} {L : RatioLib} {env : Env cfg} {tx : TxInfo} {w w' : World} {accs : List Acc}

theorem SyncRun.recorded {n : Nat} {res : Pubkey} {c : CalcCpi} {i : Nat} {acc : TokenAcc} {r : Range} {m prog : Pubkey}
    (h : SyncRun env n w res c i w' acc r) (hq : env.Quiet) (hs : SelAt cfg w i m prog res) (hp : c.program = prog) (hm : c.mint = m) :
    RecordedAt env w' i := by
  obtain ⟨s, h1, h2, h3, h4⟩ := hs
  obtain ⟨p, s0, f⟩ := ctlSync_ok.1 h.sync
  have := f.lst; rw [h1] at this; injection this with this; subst this
  have hl : w'.led = w.led := h.quiet hq
  have hlt : i < w.ctl.lsts.length := (List.getElem?_eq_some_iff.1 h1).1
  refine ⟨{ s with solValue := r.min }, res, by rw [f.eq]; simp [hlt], ?_, n, w, c.remaining, r, w'.led, ?_, rfl⟩
  · obtain ⟨mt, a, b⟩ := h4
    exact ⟨mt, by rw [hl]; exact a, b⟩
  · have := h.ask
    rw [CalcCpi.metas] at this
    simp only
    rw [hl, bal_some h.tok, h3, ← hp, h2, ← hm, ← hl]
    exact this

/-- A sync leaves the other entries as they are. -/
theorem SyncRun.recorded_other {n : Nat} {res : Pubkey} {c : CalcCpi} {i j : Nat} {acc : TokenAcc} {r : Range}
    (h : SyncRun env n w res c i w' acc r) (hq : env.Quiet) (hne : i ≠ j) (hj : RecordedAt env w j) : RecordedAt env w' j := by
  obtain ⟨s, k, h1, h2, h3⟩ := hj
  obtain ⟨p, s0, f⟩ := ctlSync_ok.1 h.sync
  have hl : w'.led = w.led := h.quiet hq
  refine ⟨s, k, by rw [f.eq]; simp only [List.getElem?_set, if_neg hne]; exact h1, ?_, ?_⟩
  · obtain ⟨mt, a, b⟩ := h2
    exact ⟨mt, by rw [hl]; exact a, b⟩
  · rw [hl]; exact h3

theorem SwapRun.recorded {sa da si di x y : Nat} (r : SwapRun L env w accs sa da si di x y w') (hq : env.Quiet) (h5 : r.l5 = r.w2.led) :
    RecordedAt env w' si ∧ RecordedAt env w' di := by
  have hsel := verifySwapCpis_sel r.ver.cpis r.ver.srcSel.get r.ver.dstSel.get
  have ss2 := r.sync1.selAt hq (r.sync0.selAt hq r.ver.srcSel.selAt)
  have ds2 := r.sync1.selAt hq (r.sync0.selAt hq r.ver.dstSel.selAt)
  have fin := r.fin
  have hled : ({ r.w2 with led := r.l5 } : World) = r.w2 := by rw [h5]
  rw [hled] at fin
  have hprog : SamePrograms r.w2.led fin.l3 := SamePrograms.of_eq
    ((transfer_mints fin.t3).trans ((transfer_mints fin.t2).trans (transfer_mints fin.t1)))
  have ss3 : SelAt cfg { r.w2 with led := fin.l3 } _ _ _ _ := ss2.led rfl hprog
  have ds3 : SelAt cfg { r.w2 with led := fin.l3 } _ _ _ _ := ds2.led rfl hprog
  have r5 := fin.sync5.recorded hq ss3 hsel.1.program hsel.1.mint_eq
  have r6 := fin.sync6.recorded hq (fin.sync5.selAt hq ds3) hsel.2.1.program hsel.2.1.mint_eq
  refine ⟨?_, r6⟩
  by_cases e : di = si
  · rw [← e]; exact r6
  · exact fin.sync6.recorded_other hq e r5

theorem StartRun.recorded {args : StartRebalanceArgs} (r : StartRun env tx w accs args w') (hi : Inv cfg w) (hq : env.Quiet) :
    RecordedAt env w' args.srcLstIndex ∧ RecordedAt env w' args.dstLstIndex := by
  have hsel := verifySrcDstCpis_sel r.cpis r.srcSel.get r.dstSel.get
  have i2 := r.sync1.inv hq (r.sync0.inv hq hi)
  have ss2 := r.sync1.selAt hq (r.sync0.selAt hq r.srcSel.selAt)
  have d1 := r.sync1.recorded hq (r.sync0.selAt hq r.dstSel.selAt) hsel.2.program hsel.2.mint_eq
  have hprog : SamePrograms r.w2.led r.l3 := SamePrograms.of_eq (transfer_mints r.t1)
  have s3 := r.sync2.recorded hq (ss2.led rfl hprog) hsel.1.program hsel.1.mint_eq
  have lift : ∀ j, RecordedAt env r.w3 j → RecordedAt env w' j := by
    rintro j ⟨s, k, a1, a2, a3⟩
    rw [r.eq]
    exact ⟨s, k, a1, a2, a3⟩
  refine ⟨lift _ s3, lift _ ?_⟩
  by_cases e : args.srcLstIndex = args.dstLstIndex
  · rw [← e]; exact s3
  · refine r.sync2.recorded_other hq e ?_
    obtain ⟨sE, e1, e2, e3, e4⟩ := ss2
    obtain ⟨s, k, a1, a2, a3⟩ := d1
    refine ⟨s, k, a1, ?_, ?_⟩
    · obtain ⟨mt, m1, m2⟩ := a2
      exact ⟨mt, by rw [transfer_mints r.t1]; exact m1, m2⟩
    · have n1 : k ≠ r.a.srcPoolReserves.key := i2.reserves_ne a1 e1 a2 e4 (fun h => e h.symm)
      have n2 : k ≠ r.a.withdrawTo.key := by
        rintro rfl
        obtain ⟨mt, x, y, f⟩ := transfer_ok.1 r.t1
        obtain ⟨b, hb, -, hm⟩ := lstAccounts_unique i2 a1 a2
        obtain ⟨b', hb', -, hm'⟩ := lstAccounts_unique i2 e1 e4
        have hy := f.dst
        rw [hb] at hy; injection hy with hy; subst hy
        exact e (mint_index i2.ctl.mints e1 a1 (e2.trans (f.bmint.symm.trans hm)))
      have hbal : bal r.l3 k = bal r.w2.led k := by
        have h := transfer_bal r.t1 k
        rw [only_ne _ n1, only_ne _ n2] at h
        omega
      simp only [hbal]
      exact a3

/-- C55: after a successful swap, deposit, redemption, sync, change of calculator, or start or end of a rebalance, the pool's record of every
LST it is about is up to date: the recorded SOL value is what that LST's calculator program, called during the instruction, answered for exactly
the amount of the LST that the reserves hold now. (The called programs change no token accounts.) -/
theorem C55_recorded {ix : Ix} (hr : Reachable cfg L w) (hq : env.Quiet) (h : processIx cfg L env tx w accs ix = .ok w') :
    ∀ j ∈ ix.lsts w, RecordedAt env w' j := by
  have hi := hr.inv
  have two : ∀ {a b : Nat}, RecordedAt env w' a ∧ RecordedAt env w' b → ∀ j ∈ [a, b], RecordedAt env w' j := by
    intro a b hab j hj
    simp only [List.mem_cons, List.not_mem_nil, or_false] at hj
    rcases hj with rfl | rfl
    · exact hab.1
    · exact hab.2
  have one : ∀ {a : Nat}, RecordedAt env w' a → ∀ j ∈ [a], RecordedAt env w' j := by
    intro a ha j hj
    rw [List.mem_singleton] at hj
    rw [hj]; exact ha
  cases ix with
  | syncSolValue i =>
    obtain ⟨r⟩ := processSync_inv h
    exact one (r.run.recorded hq r.sel.selAt r.calc_sel.program r.calc_sel.mint_eq)
  | swapExactIn a =>
    obtain ⟨out, ⟨r⟩⟩ := processSwapExactIn_inv h
    exact two (r.toSwapRun.recorded hq ((hq.calcF r.ask4).trans ((hq.priceF r.ask3).trans (hq.calcF r.ask2))))
  | swapExactOut a =>
    obtain ⟨x, ⟨r⟩⟩ := processSwapExactOut_inv h
    exact two (r.toSwapRun.recorded hq ((hq.calcF r.ask4).trans ((hq.priceF r.ask3).trans (hq.calcF r.ask2))))
  | addLiquidity a =>
    obtain ⟨r⟩ := processAddLiquidity_inv h
    have hsel := verifyLpCpis_sel r.ver.cpis r.ver.sel.get
    have ss1 := r.sync0.selAt hq r.ver.sel.selAt
    have h3 : r.l3 = r.w1.led := (hq.priceF r.ask2).trans (hq.calcF r.ask1)
    have t1 := r.t1
    rw [h3] at t1
    have hprog : SamePrograms r.w1.led r.l6 :=
      (SamePrograms.of_eq ((transfer_mints r.t2).trans (transfer_mints t1))).trans (mintTo_programs r.t3)
    exact one (r.sync3.recorded hq (ss1.led rfl hprog) hsel.1.program hsel.1.mint_eq)
  | removeLiquidity a =>
    obtain ⟨r⟩ := processRemoveLiquidity_inv h
    have hsel := verifyLpCpis_sel r.ver.cpis r.ver.sel.get
    have ss1 := r.sync0.selAt hq r.ver.sel.selAt
    have h3 : r.l3 = r.w1.led := (hq.calcF r.ask2).trans (hq.priceF r.ask1)
    have t1 := r.t1
    rw [h3] at t1
    have hprog : SamePrograms r.w1.led r.l6 :=
      (burn_programs t1).trans (SamePrograms.of_eq ((transfer_mints r.t3).trans (transfer_mints r.t2)))
    exact one (r.sync3.recorded hq (ss1.led rfl hprog) hsel.1.program hsel.1.mint_eq)
  | setSolValueCalculator i =>
    obtain ⟨r⟩ := processSetSolValueCalculator_inv h
    have hlt : i < w.ctl.lsts.length := (List.getElem?_eq_some_iff.1 r.sel.get).1
    have ss : SelAt cfg (w.setLsts (w.ctl.lsts.set i { r.s with solValueCalculator := r.c.program })) i r.a.lstMint.key r.c.program
        r.a.poolReserves.key := by
      obtain ⟨s, h1, h2, h3, h4⟩ := r.sel.selAt
      have := r.sel.get; rw [h1] at this; injection this with this
      refine ⟨{ r.s with solValueCalculator := r.c.program }, by simp [World.setLsts, hlt], r.sel.mint_eq, rfl, ?_⟩
      rw [← this]
      exact h4
    exact one (r.run.recorded hq ss rfl (by obtain ⟨a, t, _, e⟩ := ofSuffix_ok.1 r.cpi; rw [e]))
  | startRebalance a =>
    obtain ⟨r⟩ := processStartRebalance_inv h
    exact two (r.recorded hi hq)
  | endRebalance =>
    obtain ⟨r⟩ := processEndRebalance_inv h
    have hsel := verifyCalcCpi_sel r.cpi r.sel.get
    have := r.sync0.recorded hq r.sel.selAt hsel.program hsel.mint_eq
    simp only [Ix.lsts, r.record, Option.elim]
    refine one ?_
    obtain ⟨s, k, a1, ⟨mt, m1, m2⟩, a3⟩ := this
    have e1 : w'.ctl.lsts = r.w1.ctl.lsts := congrArg (fun x => x.ctl.lsts) r.eq
    have e2 : w'.led = r.w1.led := by rw [congrArg World.led r.eq]
    exact ⟨s, k, by rw [e1]; exact a1, ⟨mt, by rw [e2]; exact m1, m2⟩, by rw [e2]; exact a3⟩
  | _ => intro j hj; cases hj

end

-- The example: the records after the exact-in swap of LST 21 (index 0, one lamport a token) for LST 22 (index 1, three lamports for two).
example : ((Ex.st 6).ctl.lsts.map LstState.solValue, [bal (Ex.st 6).led Ex.resA, bal (Ex.st 6).led Ex.resB]) = ([33000, 27027], [33000, 18018]) := by
  decide +kernel

end S
