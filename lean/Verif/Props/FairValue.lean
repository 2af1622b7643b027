import Verif.Props.System
import Verif.Props.Payout
/-!
# C74: trades are settled at what the stake pools pay out, to within the slack of a conversion

Combines C67 (trades in the system are priced by the LSTs' stake pools and the flat fees) with C71 (conversions against the stake pools' own withdrawal rules).
-/
set_option autoImplicit false
namespace S
variable {L : RatioLib} {sc : SysCfg}

/-! ### Specification -/

/-- The LST is served by a calculator of the repository, `c` are the figures of its only stake pool on the chain, and there are tokens and lamports in it. -/
def SysCfg.Backs (sc : SysCfg) (ch : OnChain) (s : LstState) (c : AnyCalc) : Prop :=
  sc.Serves s.solValueCalculator ∧ c.Usable ∧ ∀ c', sc.PricedBy ch s.solValueCalculator s.mint c' → c' = c

/-- `x` base units of the LST are worth `v` lamports to within the slack: its stake pool pays at most `v` for them, and at least `v` for `slack` more. -/
def AnyCalc.Under (c : AnyCalc) (x v : Nat) : Prop := c.payout x ≤ v ∧ v ≤ c.payout (x + c.slack)

/-- `x` base units of the LST are worth `v` lamports to within the slack: its stake pool pays at least `v` for them, and at most `v` for `slack` less. -/
def AnyCalc.Over (c : AnyCalc) (x v : Nat) : Prop := v ≤ c.payout x ∧ c.payout (x - c.slack) ≤ v

/-! ### Proofs -/

theorem AnyCalc.under {c : AnyCalc} (hu : c.Usable) {v : Nat} {r : Range} (h : (c.calculator L).solToLst v = .ok r) : c.Under r.min v ∧ c.Over r.max v := by
  have ha := c.answers_of (.inr h)
  have ht := C71_tight L hu h
  have he := (c.is L hu).solToLst h
  have hd := (c.conv hu ha).down v
  have hup := (c.conv hu ha).up v
  rw [c.f_payout hu ha] at hd hup
  refine ⟨⟨?_, ht.1⟩, ?_, ht.2⟩
  · rw [he]; exact hd
  · rw [he]; exact hup

section
variable {s₀ : Sys sc} {h : List (SysTx sc)} {e : SysEvent sc} {o : Outside sc} {accs : List Acc} {p : PoolState}

/-- C74: whoever swaps in `amount` receives LSTs for what the stake pool of the input pays out for `amount`, less the flat fee, to within the slack of the output's pool. -/
theorem C74_swapExactIn (he : e ∈ systemEvents L s₀ h) {args : SwapExactInArgs} (hix : e.IsIx o accs (.swapExactIn args)) (hq : o.other.Quiet)
    (hp : e.pre.world.ctl.pool = some p) (hpp : p.pricingProgram = sc.fc.programId) {si so : LstState}
    (hsi : e.pre.world.ctl.lsts[args.srcLstIndex]? = some si) (hso : e.pre.world.ctl.lsts[args.dstLstIndex]? = some so) {ci co : AnyCalc}
    (hci : sc.Backs o.chain si ci) (hco : sc.Backs o.chain so co) :
    ∃ fi fo n out fee signer srcAcc dstAcc feeAcc srcRes dstRes,
      (e.pre.flat L).feesOf sc.fc si.mint = some fi ∧ (e.pre.flat L).feesOf sc.fc so.mint = some fo ∧
      ((n : Nat) : Int) = 10000 - (fi.inputFeeBps + fo.outputFeeBps) ∧
      co.Under out (ci.payout args.amount * n / 10000) ∧ args.minAmountOut ≤ out ∧
      SwapMoves sc.cfg e.pre.world e.post.world accs args.srcLstIndex args.dstLstIndex args.amount out fee p si so signer srcAcc dstAcc feeAcc srcRes dstRes := by
  obtain ⟨ci', co', fi, fo, vi, out, n, fee, signer, srcAcc, dstAcc, feeAcc, srcRes, dstRes, h1, h2, h3, h4, h5, h6, h7, h8, h9⟩ :=
    C67_swapExactIn he hix hq hp hpp hsi hso hci.1 hco.1
  rw [hci.2.2 _ h1] at h5; rw [hco.2.2 _ h2] at h7
  obtain ⟨rfl, _⟩ := (C71_value L hci.2.1).1 h5
  exact ⟨fi, fo, n, out.min, fee, signer, srcAcc, dstAcc, feeAcc, srcRes, dstRes, h3, h4, h6, (AnyCalc.under hco.2.1 h7).1, h8, h9⟩

/-- C74: whoever swaps for exactly `amount` pays in LSTs for what the stake pool of the output pays out for `amount`, plus one lamport, marked up by the flat fee and rounded up,
to within the slack of the input's pool. -/
theorem C74_swapExactOut (he : e ∈ systemEvents L s₀ h) {args : SwapExactOutArgs} (hix : e.IsIx o accs (.swapExactOut args)) (hq : o.other.Quiet)
    (hp : e.pre.world.ctl.pool = some p) (hpp : p.pricingProgram = sc.fc.programId) {si so : LstState}
    (hsi : e.pre.world.ctl.lsts[args.srcLstIndex]? = some si) (hso : e.pre.world.ctl.lsts[args.dstLstIndex]? = some so) {ci co : AnyCalc}
    (hci : sc.Backs o.chain si ci) (hco : sc.Backs o.chain so co) :
    ∃ fi fo n inp fee signer srcAcc dstAcc feeAcc srcRes dstRes,
      (e.pre.flat L).feesOf sc.fc si.mint = some fi ∧ (e.pre.flat L).feesOf sc.fc so.mint = some fo ∧
      n = 10000 - (fi.inputFeeBps + fo.outputFeeBps) ∧
      (0 < n → ci.Over inp ((10000 * (co.payout args.amount + 1) + n.toNat - 1) / n.toNat)) ∧ inp ≤ args.maxAmountIn ∧
      SwapMoves sc.cfg e.pre.world e.post.world accs args.srcLstIndex args.dstLstIndex inp args.amount fee p si so signer srcAcc dstAcc feeAcc srcRes dstRes := by
  obtain ⟨ci', co', fi, fo, vo, inp, n, fee, signer, srcAcc, dstAcc, feeAcc, srcRes, dstRes, h1, h2, h3, h4, h5, h6, h7, h8, h9⟩ :=
    C67_swapExactOut he hix hq hp hpp hsi hso hci.1 hco.1
  rw [hco.2.2 _ h2] at h5
  obtain ⟨rfl, _⟩ := (C71_value L hco.2.1).1 h5
  refine ⟨fi, fo, n, inp.max, fee, signer, srcAcc, dstAcc, feeAcc, srcRes, dstRes, h3, h4, h6, fun hn => ?_, h8, h9⟩
  have h7 := h7 hn
  rw [hci.2.2 _ h1] at h7
  exact (AnyCalc.under hci.2.1 h7).2

/-- C74: a deposit of `lstAmount` mints LP tokens for exactly what the stake pool pays out for it, of a total in which the LST's reserves count for what the stake pool pays
out for them; if that is anything, no fee is taken. -/
theorem C74_addLiquidity (he : e ∈ systemEvents L s₀ h) {args : AddLiquidityArgs} (hix : e.IsIx o accs (.addLiquidity args)) (hq : o.other.Quiet)
    (hp : e.pre.world.ctl.pool = some p) (hpp : p.pricingProgram = sc.fc.programId) {s : LstState}
    (hs : e.pre.world.ctl.lsts[args.lstIndex]? = some s) {c : AnyCalc} (hc : sc.Backs o.chain s c) :
    ∃ total toRes toFee lp m signer userLst userLp feeAcc res,
      LiqParties sc.cfg e.pre.world accs args.lstIndex p s signer userLst userLp feeAcc res ∧
      total + s.solValue = p.totalSolValue + c.payout (bal e.pre.world.led res.key) ∧
      e.pre.world.led.mints p.lpTokenMint = some m ∧ LpMinted m.supply total (c.payout args.lstAmount) lp ∧ args.minLpOut ≤ lp ∧
      toRes + toFee = args.lstAmount ∧ (c.payout args.lstAmount ≠ 0 → toFee = 0) ∧
      ∀ k, bal e.post.world.led k + only userLst.key args.lstAmount k = bal e.pre.world.led k + only res.key toRes k + only feeAcc.key toFee k + only userLp.key lp k := by
  obtain ⟨c1, c2, v, r0, total, toRes, toFee, lp, m, signer, userLst, userLp, feeAcc, res, h1, h2, h3, h4, h5, h6, h7, h8, h9, h10, h11, h12⟩ :=
    C67_addLiquidity he hix hq hp hpp hs hc.1
  rw [hc.2.2 _ h2] at h4; rw [hc.2.2 _ h3] at h5
  obtain ⟨rfl, _⟩ := (C71_value L hc.2.1).1 h4
  obtain ⟨rfl, _⟩ := (C71_value L hc.2.1).1 h5
  exact ⟨total, toRes, toFee, lp, m, signer, userLst, userLp, feeAcc, res, h1, h6, h7, h8, h9, h10, h11, h12⟩

/-- C74: a redemption of LP tokens worth `v`, of a total in which the LST's reserves count for what the stake pool pays out for them, pays LSTs worth `v` less the withdrawal
fee to within the slack of the LST's pool. -/
theorem C74_removeLiquidity (he : e ∈ systemEvents L s₀ h) {args : RemoveLiquidityArgs} (hix : e.IsIx o accs (.removeLiquidity args)) (hq : o.other.Quiet)
    (hp : e.pre.world.ctl.pool = some p) (hpp : p.pricingProgram = sc.fc.programId) {s : LstState}
    (hs : e.pre.world.ctl.lsts[args.lstIndex]? = some s) {c : AnyCalc} (hc : sc.Backs o.chain s c) :
    ∃ st v total out fee m signer userLst userLp feeAcc res,
      LiqParties sc.cfg e.pre.world accs args.lstIndex p s signer userLst userLp feeAcc res ∧ (e.pre.flat L).state = some st ∧
      total + s.solValue = p.totalSolValue + c.payout (bal e.pre.world.led res.key) ∧
      e.pre.world.led.mints p.lpTokenMint = some m ∧ LpValue m.supply total args.lpTokenAmount v ∧
      c.Under out (v - (v * st.lpWithdrawalFeeBps + 9999) / 10000) ∧ args.minLstOut ≤ out ∧
      ∀ k, bal e.post.world.led k + only userLp.key args.lpTokenAmount k + only res.key (out + fee) k =
        bal e.pre.world.led k + only userLst.key out k + only feeAcc.key fee k := by
  obtain ⟨c1, c2, st, v, r0, total, out, fee, m, signer, userLst, userLp, feeAcc, res, h1, h2, h3, h4, h5, h6, h7, h8, h9, h10, h11⟩ :=
    C67_removeLiquidity he hix hq hp hpp hs hc.1
  rw [hc.2.2 _ h3] at h5; rw [hc.2.2 _ h2] at h9
  obtain ⟨rfl, _⟩ := (C71_value L hc.2.1).1 h5
  exact ⟨st, v, total, out.min, fee, m, signer, userLst, userLp, feeAcc, res, h1, h4, h6, h7, h8, (AnyCalc.under hc.2.1 h9).1, h10, h11⟩

end
end S

namespace S.Ex

theorem sys_backs {slot : Nat} {s : LstState} (hl : (s.mint = 22 ∧ s.solValueCalculator = 32) ∨ (s.mint = 21 ∧ s.solValueCalculator = 31)) :
    sysc.Backs (onchain 0 slot) s (Ex.val s.mint) := by
  refine ⟨serves s (hl.elim (fun h => .inr h.2) fun h => .inl h.2), ?_, fun c hc => lido_only hl hc⟩
  unfold Ex.val; split
  · exact ⟨by decide, by decide⟩
  · trivial

-- the swap of 3000 lamports' worth for Lido's tokens (transaction 18)
example : ∃ e ∈ systemEvents .ex sys0 (sysHist.take 18), ∃ fi fo n out, (e.pre.flat .ex).feesOf fc 21 = some fi ∧ (e.pre.flat .ex).feesOf fc 22 = some fo ∧
    ((n : Nat) : Int) = 10000 - (fi.inputFeeBps + fo.outputFeeBps) ∧ (AnyCalc.lido ⟨0, 2, 3⟩).Under out (3000 * n / 10000) := by
  obtain ⟨e, hpre, _, hix, hev⟩ := sysEv (n := 17) (o := outside 0 5000) (accs := sysSwap) (ix := .swapExactIn ⟨1, 5, 0, 1, 10, 3000⟩) rfl
    (by decide +kernel) (by decide +kernel)
  have he : e ∈ systemEvents .ex sys0 (sysHist.take 18) := by rw [hev]; simp
  obtain ⟨p, hp, hpp⟩ := of_map sys_lists.1
  have hA : (sysAt 17).world.ctl.lsts[0]? = some ⟨0, 255, 255, 30000, 21, 31⟩ := by decide +kernel
  have hB : (sysAt 17).world.ctl.lsts[1]? = some ⟨0, 255, 255, 30000, 22, 32⟩ := by decide +kernel
  rw [← hpre] at hp hA hB
  obtain ⟨fi, fo, n, out, _, _, _, _, _, _, _, h1, h2, h3, h4, _⟩ :=
    C74_swapExactIn he hix Env.pure_quiet hp hpp hA hB (sys_backs (.inr ⟨rfl, rfl⟩)) (sys_backs (.inl ⟨rfl, rfl⟩))
  exact ⟨e, he, fi, fo, n, out, h1, h2, h3, h4⟩
-- the fees are 20 bp together: 2994 lamports buy 1996 base units, for which Lido pays out 2994
example : (AnyCalc.lido ⟨0, 2, 3⟩).Under 1996 2994 ∧ ¬ (AnyCalc.lido ⟨0, 2, 3⟩).Under 1994 2994 ∧ ¬ (AnyCalc.lido ⟨0, 2, 3⟩).Under 1997 2994 := by
  unfold AnyCalc.Under; decide +kernel

theorem sys_listed : ∀ n ∈ [15, 18, 19], (sysAt n).world.ctl.lsts[0]?.map (·.mint) = some 21 ∧ (sysAt n).world.ctl.lsts[1]?.map (·.mint) = some 22 := by
  decide +kernel

theorem sys_entry {n : Nat} (h1 : n ∈ [15, 17, 18, 19]) (h2 : n ∈ [15, 18, 19]) : ∃ s0 s1, (sysAt n).world.ctl.lsts[0]? = some s0 ∧
    (sysAt n).world.ctl.lsts[1]? = some s1 ∧ (s0.mint = 21 ∧ s0.solValueCalculator = 31) ∧ s1.mint = 22 ∧ s1.solValueCalculator = 32 := by
  obtain ⟨s0, h0, e0⟩ := of_map (sys_lists.2.2.2.2 n h1).1
  obtain ⟨s1, h1, e1⟩ := of_map (sys_lists.2.2.2.2 n h1).2
  obtain ⟨m0, m1⟩ := sys_listed n h2
  rw [h0] at m0; rw [h1] at m1
  injection m0 with m0; injection m1 with m1
  exact ⟨s0, s1, h0, h1, ⟨m0, e0⟩, m1, e1⟩

-- the swap for exactly 2000 of Lido's tokens (transaction 19): 3000 lamports, one more and the fees are 3007 lamports
example : ∃ e ∈ systemEvents .ex sys0 (sysHist.take 19), ∃ fi fo n inp, (e.pre.flat .ex).feesOf fc 21 = some fi ∧ (e.pre.flat .ex).feesOf fc 22 = some fo ∧
    n = 10000 - (fi.inputFeeBps + fo.outputFeeBps) ∧ (0 < n → AnyCalc.wsol.Over inp ((10000 * 3001 + n.toNat - 1) / n.toNat)) := by
  obtain ⟨e, hpre, _, hix, hev⟩ := sysEv (n := 18) (o := outside 0 5000) (accs := sysSwap) (ix := .swapExactOut ⟨1, 5, 0, 1, 5000, 2000⟩) rfl
    (by decide +kernel) (by decide +kernel)
  have he : e ∈ systemEvents .ex sys0 (sysHist.take 19) := by rw [hev]; simp
  obtain ⟨p, hp, hpp⟩ := sys_prog sys_lists.2.1
  obtain ⟨s0, s1, h0, h1, e0, e1⟩ := sys_entry (n := 18) (by simp) (by simp)
  rw [← hpre] at hp h0 h1
  have hb0 := sys_backs (slot := 5000) (.inr e0)
  have hb1 := sys_backs (slot := 5000) (.inl e1)
  rw [e0.1] at hb0; rw [e1.1] at hb1
  obtain ⟨fi, fo, n, inp, _, _, _, _, _, _, _, h1, h2, h3, h4, _⟩ := C74_swapExactOut he hix Env.pure_quiet hp hpp h0 h1 hb0 hb1
  rw [e0.1] at h1; rw [e1.1] at h2
  exact ⟨e, he, fi, fo, n, inp, h1, h2, h3, h4⟩

-- the deposit of 20000 of Lido's tokens (transaction 16) is credited 30000 lamports
example : ∃ e ∈ systemEvents .ex sys0 (sysHist.take 16), ∃ total m lp p, e.pre.world.led.mints p = some m ∧ LpMinted m.supply total 30000 lp := by
  obtain ⟨e, hpre, _, hix, hev⟩ := sysEv (n := 15) (o := outside 0 5000) (accs := sysLiqB) (ix := .addLiquidity ⟨5, 1, 20000, 1⟩) rfl
    (by decide +kernel) (by decide +kernel)
  have he : e ∈ systemEvents .ex sys0 (sysHist.take 16) := by rw [hev]; simp
  obtain ⟨p, hp, hpp⟩ := sys_prog sys_lists.2.2.1
  obtain ⟨s0, s1, h0, h1, e0, e1⟩ := sys_entry (n := 15) (by simp) (by simp)
  rw [← hpre] at hp h0 h1
  have hb1 := sys_backs (slot := 5000) (.inl e1)
  rw [e1.1] at hb1
  obtain ⟨total, _, _, lp, m, _, _, _, _, _, _, _, h2, h3, _⟩ := C74_addLiquidity he hix Env.pure_quiet hp hpp h1 hb1
  exact ⟨e, he, total, m, lp, _, h2, h3⟩

-- the redemption (transaction 20)
example : ∃ e ∈ systemEvents .ex sys0 (sysHist.take 20), ∃ st v out, (e.pre.flat .ex).state = some st ∧
    (AnyCalc.lido ⟨0, 2, 3⟩).Under out (v - (v * st.lpWithdrawalFeeBps + 9999) / 10000) := by
  obtain ⟨e, hpre, _, hix, hev⟩ := sysEv (n := 19) (o := outside 0 5000) (accs := sysLiqB) (ix := .removeLiquidity ⟨5, 1, 10000, 1⟩) rfl
    (by decide +kernel) (by decide +kernel)
  have he : e ∈ systemEvents .ex sys0 (sysHist.take 20) := by rw [hev]; simp
  obtain ⟨p, hp, hpp⟩ := sys_prog sys_lists.2.2.2.1
  obtain ⟨s0, s1, h0, h1, e0, e1⟩ := sys_entry (n := 19) (by simp) (by simp)
  rw [← hpre] at hp h0 h1
  have hb1 := sys_backs (slot := 5000) (.inl e1)
  rw [e1.1] at hb1
  obtain ⟨st, v, _, out, _, _, _, _, _, _, _, _, h2, _, _, _, h3, _⟩ := C74_removeLiquidity he hix Env.pure_quiet hp hpp h1 hb1
  exact ⟨e, he, st, v, out, h2, h3⟩
-- 10000 LP tokens are worth 10002 lamports; less the fee 9976, for which 6650 are paid out
example : bal (sysAt 20).world.led 42 = bal (sysAt 19).world.led 42 + 6650 ∧ (AnyCalc.lido ⟨0, 2, 3⟩).payout 6650 = 9975 := by decide +kernel

end S.Ex
