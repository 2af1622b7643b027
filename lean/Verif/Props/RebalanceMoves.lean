import Verif.Props.Movements
import Verif.Props.Value
/-
What StartRebalance, EndRebalance and WithdrawProtocolFees do, in full (C69): movements of tokens, bounds, what is recorded.
-/
set_option autoImplicit false
namespace S
variable {cfg : Cfg} {L : RatioLib} {env : Env cfg} {tx : TxInfo} {w w' : World} {accs : List Acc}

/-- The pool's reserves of the LST `s`. -/
def ReservesOf (cfg : Cfg) (w : World) (s : LstState) (k : Pubkey) : Prop :=
  ∃ m, w.led.mints s.mint = some m ∧ cfg.ata cfg.poolState m.program s.mint s.poolReservesBump = some k

theorem LstSel.reservesOf {i : Nat} {mint tp res : Pubkey} {s : LstState} (h : LstSel cfg w i mint tp res s) : ReservesOf cfg w s res := by
  obtain ⟨m, hm, rfl⟩ := h.prog
  rw [← h.mint_eq] at hm
  exact ⟨m, hm, h.res_eq⟩

/-- The parties of a StartRebalance: the source and destination entries of the list, the rebalance authority and the account the tokens go to, and the two reserves. -/
structure StartParties (cfg : Cfg) (w : World) (accs : List Acc) (i j : Nat) (p : PoolState) (src dst : LstState) (auth srcRes dstRes dest : Acc) : Prop where
  pool : w.ctl.pool = some p
  active : p.isRebalancing = 0 ∧ p.isDisabled = 0
  srcEntry : w.ctl.lsts[i]? = some src
  dstEntry : w.ctl.lsts[j]? = some dst
  dstEnabled : dst.isInputDisabled = 0
  pos0 : accs[0]? = some auth
  pos6 : accs[6]? = some srcRes
  pos7 : accs[7]? = some dstRes
  pos8 : accs[8]? = some dest
  signed : auth.signer = true ∧ auth.key = p.rebalanceAuthority
  srcReserves : ReservesOf cfg w src srcRes.key
  dstReserves : ReservesOf cfg w dst dstRes.key
  destMint : ∃ a, w.led.tok dest.key = some a ∧ a.mint = src.mint

theorem StartRebAccs.load_pos {a : StartRebAccs} {r : List Acc} (h : StartRebAccs.load accs = .ok (a, r)) :
    accs[0]? = some a.rebalanceAuthority ∧ accs[6]? = some a.srcPoolReserves ∧ accs[7]? = some a.dstPoolReserves ∧ accs[8]? = some a.withdrawTo := by
  unfold StartRebAccs.load at h; split at h
  · injection h with h; injection h with h _; subst h; exact ⟨rfl, rfl, rfl, rfl⟩
  · cases h

/-- C69: a successful StartRebalance moves exactly `amount` tokens from the pool's reserves of the source LST to the account the rebalance authority names, and nothing
else. Before that the source reserves held at least `minStartingSrcLst` and the destination reserves at most `maxStartingDstLst`. It records the pool's total with both
LSTs valued by their calculators as before the movement (`T`), and leaves the source valued by its calculator as after it. -/
theorem C69_startRebalance {args : StartRebalanceArgs} (hq : env.Quiet) (h : processIx cfg L env tx w accs (.startRebalance args) = .ok w') :
    ∃ p src dst auth srcRes dstRes dest r0 r1 r2 T t,
      StartParties cfg w accs args.srcLstIndex args.dstLstIndex p src dst auth srcRes dstRes dest ∧
      args.minStartingSrcLst ≤ bal w.led srcRes.key ∧ bal w.led dstRes.key ≤ args.maxStartingDstLst ∧
      (∀ k, bal w'.led k + only srcRes.key args.amount k = bal w.led k + only dest.key args.amount k) ∧
      w'.led.mints = w.led.mints ∧ SameAccounts w.led w'.led ∧
      CalcAnswer env 0 w.led src.solValueCalculator src.mint (.lstToSol (bal w.led srcRes.key)) r0 ∧
      CalcAnswer env 1 w.led dst.solValueCalculator dst.mint (.lstToSol (bal w.led dstRes.key)) r1 ∧
      CalcAnswer env 2 w'.led src.solValueCalculator src.mint (.lstToSol (bal w'.led srcRes.key)) r2 ∧
      (args.srcLstIndex ≠ args.dstLstIndex → T + src.solValue + dst.solValue = p.totalSolValue + r0.min + r1.min ∧ t + r0.min = T + r2.min) ∧
      (args.srcLstIndex = args.dstLstIndex → T + src.solValue = p.totalSolValue + r1.min ∧ t + r1.min = T + r2.min) ∧
      w'.ctl = { w.ctl with
        rebal := some ⟨T, args.dstLstIndex⟩
        pool := some { p with totalSolValue := t, isRebalancing := 1 }
        lsts := (w.ctl.lsts.set args.dstLstIndex { dst with solValue := r1.min }).set args.srcLstIndex { src with solValue := r2.min } } := by
  obtain ⟨r⟩ := processStartRebalance_inv h
  obtain ⟨g0, g6, g7, g8⟩ := StartRebAccs.load_pos r.load
  have hc := r.cpis
  simp only [verifySrcDstCpis, bind_ok, Prod.exists, splitAt_ok, pure_ok] at hc
  obtain ⟨x, y, _, cs, hcs, cd, hcd, e⟩ := hc
  have es := verifyCalcCpi_sel hcs r.srcSel.get
  have ed := verifyCalcCpi_sel hcd r.dstSel.get
  have esp : r.c.src.program = r.src.solValueCalculator := by rw [← e]; exact es.program
  have edp : r.c.dst.program = r.dst.solValueCalculator := by rw [← e]; exact ed.program
  have esm : r.c.src.metas.head?.map Acc.key = some r.src.mint := by
    rw [← e]; exact congrArg some (es.mint_eq.trans r.srcSel.mint_eq.symm)
  have edm : r.c.dst.metas.head?.map Acc.key = some r.dst.mint := by
    rw [← e]; exact congrArg some (ed.mint_eq.trans r.dstSel.mint_eq.symm)
  have l1 : r.w1.led = w.led := r.sync0.quiet hq
  have l2 : r.w2.led = w.led := (r.sync1.quiet hq).trans l1
  have l3 : r.w3.led = r.l3 := r.sync2.quiet hq
  have el : w'.led = r.l3 := (congrArg World.led r.eq).trans l3
  have ht1 := r.t1
  rw [l2] at ht1
  obtain ⟨m, sa, da, f⟩ := transfer_ok.1 ht1
  have q0 := r.sync0.ask
  have q1 := r.sync1.ask
  have q2 := r.sync2.ask
  have b0 := bal_some r.sync0.tok
  have b1 := bal_some r.sync1.tok
  have b2 := bal_some r.sync2.tok
  simp only at b2
  rw [esp, ← b0, l1] at q0
  rw [edp, ← b1, l1, l2] at q1
  rw [esp, ← b2, l3] at q2
  obtain ⟨p0, s0, f0⟩ := ctlSync_ok.1 r.sync0.sync
  obtain ⟨p1, s1, f1⟩ := ctlSync_ok.1 r.sync1.sync
  obtain ⟨p2, s2, f2⟩ := ctlSync_ok.1 r.sync2.sync
  have e0 := f0.pool; rw [r.pool] at e0; injection e0 with e0; subst e0
  have e0 := f0.lst; rw [r.srcSel.get] at e0; injection e0 with e0; subst e0
  have hi : args.srcLstIndex < w.ctl.lsts.length := (List.getElem?_eq_some_iff.1 r.srcSel.get).1
  have hj : args.dstLstIndex < w.ctl.lsts.length := (List.getElem?_eq_some_iff.1 r.dstSel.get).1
  have e1 := f1.pool; rw [f0.eq] at e1; injection e1 with e1; subst e1
  have e2 := f2.pool; simp only at e2; rw [f1.eq] at e2; injection e2 with e2; subst e2
  have eT := r.pool2; rw [f1.eq] at eT; injection eT with eT
  have e3 := r.pool3; rw [f2.eq] at e3; injection e3 with e3
  have s1' := f1.lst; rw [f0.eq] at s1'; simp only at s1'
  have s2' := f2.lst; simp only at s2'; rw [f1.eq, f0.eq] at s2'; simp only at s2'
  have k0 := f0.le
  have k1 := f1.le
  have k2 := f2.le
  simp only at k1 k2
  refine ⟨r.p, r.src, r.dst, r.a.rebalanceAuthority, r.a.srcPoolReserves, r.a.dstPoolReserves, r.a.withdrawTo, r.r0, r.r1, r.r2, r.p2.totalSolValue, r.p3.totalSolValue,
    ⟨r.pool, ⟨r.notReb, r.notDis⟩, r.srcSel.get, r.dstSel.get, r.inputEnabled, g0, g6, g7, g8, ⟨r.signer, r.auth⟩, r.srcSel.reservesOf, r.dstSel.reservesOf,
      ⟨da, f.dst, f.bmint.trans r.srcSel.mint_eq.symm⟩⟩,
    by rw [bal_some r.hsa]; exact r.minSrc, by rw [bal_some r.hda]; exact r.maxDst, fun k => by rw [el]; exact transfer_bal ht1 k,
    by rw [el]; exact transfer_mints ht1, by rw [el]; exact transfer_same ht1, CalcAnswer.mk q0 rfl esm, CalcAnswer.mk q1 l1 edm, ?_, ?_, ?_, ?_⟩
  · rw [el]; exact CalcAnswer.mk q2 rfl esm
  · intro hne
    rw [List.getElem?_set_ne hne, r.dstSel.get] at s1'
    injection s1' with s1'
    rw [List.getElem?_set_ne (fun h => hne h.symm), List.getElem?_set_self hi] at s2'
    injection s2' with s2'
    rw [← eT, ← e3]
    subst s1'; subst s2'
    simp only at k0 k1 k2 ⊢
    constructor <;> omega
  · intro heq
    rw [← heq, List.getElem?_set_self hi] at s1'
    injection s1' with s1'
    rw [← heq, List.getElem?_set_self (by rw [List.length_set]; exact hi)] at s2'
    injection s2' with s2'
    rw [← eT, ← e3]
    subst s1'; subst s2'
    simp only at k0 k1 k2 ⊢
    constructor <;> omega
  · have ec := congrArg World.ctl r.eq
    rw [ec]; simp only
    rw [← e3, f2.eq, f1.eq, f0.eq]
    simp only [Ctl.mk.injEq, true_and]
    by_cases heq : args.srcLstIndex = args.dstLstIndex
    · rw [← heq, List.getElem?_set_self hi] at s1'
      injection s1' with s1'
      rw [← heq, List.getElem?_set_self (by rw [List.length_set]; exact hi)] at s2'
      injection s2' with s2'
      subst s1'; subst s2'
      simp [← heq]
    · rw [List.getElem?_set_ne heq, r.dstSel.get] at s1'
      injection s1' with s1'
      rw [List.getElem?_set_ne (fun h => heq h.symm), List.getElem?_set_self hi] at s2'
      injection s2' with s2'
      subst s1'; subst s2'
      refine ⟨?_, trivial⟩
      rw [List.set_comm _ _ heq, List.set_set]


theorem EndRebAccs.load_pos {a : EndRebAccs} {r : List Acc} (h : EndRebAccs.load accs = .ok (a, r)) :
    accs[0]? = some a.rebalanceAuthority ∧ accs[5]? = some a.dstPoolReserves := by
  unfold EndRebAccs.load at h; split at h
  · injection h with h; injection h with h _; subst h; exact ⟨rfl, rfl⟩
  · cases h

/-- C69: a successful EndRebalance moves no token. It values the destination LST named at the start by its calculator for what its reserves hold now, requires the total to be
at least the recorded one, removes the record and ends the rebalance. -/
theorem C69_endRebalance (hq : env.Quiet) (h : processIx cfg L env tx w accs .endRebalance = .ok w') :
    ∃ p rr dst auth dstRes r t, w.ctl.pool = some p ∧ w.ctl.rebal = some rr ∧ p.isRebalancing ≠ 0 ∧ w.ctl.lsts[rr.dstLstIndex]? = some dst ∧
      accs[0]? = some auth ∧ accs[5]? = some dstRes ∧ auth.signer = true ∧ auth.key = p.rebalanceAuthority ∧ ReservesOf cfg w dst dstRes.key ∧
      w'.led = w.led ∧ CalcAnswer env 0 w.led dst.solValueCalculator dst.mint (.lstToSol (bal w.led dstRes.key)) r ∧
      t + dst.solValue = p.totalSolValue + r.min ∧ rr.oldTotalSolValue ≤ t ∧
      w'.ctl = { w.ctl with
        rebal := none
        pool := some { p with totalSolValue := t, isRebalancing := 0 }
        lsts := w.ctl.lsts.set rr.dstLstIndex { dst with solValue := r.min } } := by
  obtain ⟨r⟩ := processEndRebalance_inv h
  obtain ⟨g0, g5⟩ := EndRebAccs.load_pos r.load
  have es := verifyCalcCpi_sel r.cpi r.sel.get
  have l1 : r.w1.led = w.led := r.sync0.quiet hq
  have el : w'.led = w.led := (congrArg World.led r.eq).trans l1
  have q0 := r.sync0.ask
  have b0 := bal_some r.sync0.tok
  simp only at b0
  rw [es.program, ← b0, l1] at q0
  obtain ⟨p0, s0, f0⟩ := ctlSync_ok.1 r.sync0.sync
  have e0 := f0.pool; injection e0 with e0; subst e0
  have e0 := f0.lst; simp only at e0; rw [r.sel.get] at e0; injection e0 with e0; subst e0
  have e1 := r.pool1; rw [f0.eq] at e1; injection e1 with e1
  have k0 := f0.le
  have hno := r.noLoss
  rw [← e1] at hno
  simp only at k0 hno
  refine ⟨r.p, r.rr, r.dst, r.a.rebalanceAuthority, r.a.dstPoolReserves, r.r, _, r.pool, r.record, r.reb, r.sel.get, g0, g5, r.signer, r.auth, r.sel.reservesOf, el,
    CalcAnswer.mk q0 rfl (congrArg some (es.mint_eq.trans r.sel.mint_eq.symm)), ?_, hno, ?_⟩
  · omega
  · have ec := congrArg World.ctl r.eq
    rw [ec]; simp only
    rw [f0.eq]

theorem WithdrawAccs.load_positions {a : WithdrawAccs} (h : WithdrawAccs.load accs = .ok a) :
    accs[0]? = some a.beneficiary ∧ accs[1]? = some a.withdrawTo ∧ accs[2]? = some a.protocolFeeAccumulator := by
  unfold WithdrawAccs.load at h; split at h
  · injection h with h; subst h; exact ⟨rfl, rfl, rfl⟩
  · cases h

/-- C69: a successful WithdrawProtocolFees moves exactly `amount` tokens from the protocol fee accumulator of the receiving account's mint to the receiving account, for the
beneficiary, while the pool is active; nothing else changes. -/
theorem C69_withdrawProtocolFees {amount : Nat} (h : processIx cfg L env tx w accs (.withdrawProtocolFees amount) = .ok w') :
    ∃ p signer dest feeAcc t, w.ctl.pool = some p ∧ p.isRebalancing = 0 ∧ p.isDisabled = 0 ∧ accs[0]? = some signer ∧ accs[1]? = some dest ∧ accs[2]? = some feeAcc ∧
      signer.signer = true ∧ signer.key = p.protocolFeeBeneficiary ∧ w.led.tok dest.key = some t ∧
      feeAcc.key = (cfg.findAta cfg.protocolFee t.program t.mint).1 ∧ amount ≤ bal w.led feeAcc.key ∧
      (∀ k, bal w'.led k + only feeAcc.key amount k = bal w.led k + only dest.key amount k) ∧
      w'.led.mints = w.led.mints ∧ SameAccounts w.led w'.led ∧ w'.ctl = w.ctl := by
  obtain ⟨r⟩ := processWithdraw_inv h
  obtain ⟨g0, g1, g2⟩ := WithdrawAccs.load_positions r.load
  have el : w'.led = r.l1 := congrArg World.led r.eq
  exact ⟨r.p, r.a.beneficiary, r.a.withdrawTo, r.a.protocolFeeAccumulator, r.t, r.pool, r.notReb, r.notDis, g0, g1, g2, r.signer, r.beneficiary, r.ht, r.accum,
    by rw [bal_some r.hfa]; exact r.enough, fun k => by rw [el]; exact transfer_bal r.t1 k, by rw [el]; exact transfer_mints r.t1, by rw [el]; exact transfer_same r.t1,
    by have e := congrArg World.ctl r.eq; exact e⟩


-- The hypotheses of the three are met: StartRebalance and EndRebalance in the example's `tRebalance`, and a withdrawal of fees.
example : ((historyEvents .ex Ex.w0 Ex.hist).map fun e => (bal e.pre.led Ex.resB, bal e.post.led Ex.resB, bal e.pre.led 42, bal e.post.led 42)).drop 8 =
    [(16016, 12016, 983980, 987980), (12016, 12016, 987980, 987980), (12016, 12016, 987980, 987980)] := by decide +kernel
example : Ex.env.Quiet := Env.pure_quiet
example : (processIx Ex.cfg .ex Ex.env ⟨Ex.tRebalance.map Step.top, 0⟩ (Ex.st 8) Ex.startB (.startRebalance ⟨1, 1, 0, 4000, 0, 1000000⟩)).toOption.isSome = true ∧
    (processIx Ex.cfg .ex Ex.env ⟨Ex.tRebalance.map Step.top, 0⟩ (Ex.st 8) Ex.startB (.startRebalance ⟨1, 1, 0, 4000, 16017, 1000000⟩)).toOption.isSome = false := by
  decide +kernel
example : ((historyEvents .ex Ex.w0 Ex.hist2).map fun e => (bal e.pre.led Ex.feeB, bal e.post.led Ex.feeB, bal e.pre.led 42, bal e.post.led 42))[25]? =
    some (4, 2, 987980, 987982) := by decide +kernel

end S
