import Verif.Props.Movements
/-
C77: what the bounds given with a trade do.
-/
set_option autoImplicit false
namespace S

section
variable {cfg : Cfg} {L : RatioLib} {env : Env cfg} {tx : TxInfo} {w w' : World} {accs : List Acc}

theorem swapIn_slip {args : SwapExactInArgs} (h : processSwapExactIn cfg L env w accs args = .ok w') :
    ∃ out, Nonempty (SwapInRun L env w accs args w' out) ∧ ∀ b, processSwapExactIn cfg L env w accs { args with minAmountOut := b } =
      if b ≤ out then .ok w' else .error .slippageToleranceExceeded := by
  simp only [processSwapExactIn, bind_ok, Prod.exists, require_ok, exists_const] at h
  obtain ⟨hnz, a, suffix, hl, c, hver, w1, e0, w2, e1, t, et, rIn, w3, e2, hinne, outSol, w4, e3, rOut, w5, e4, hmin, hne, p5, hp5, fee, hfee, hfin⟩ := h
  obtain ⟨sacc, sr, hs0⟩ := syncUnchecked_ok.1 e0
  obtain ⟨dacc, dr, hs1⟩ := syncUnchecked_ok.1 e1
  obtain ⟨p2, hp2, rfl⟩ := totalSolValue_ok.1 et
  obtain ⟨l3, hq2, hlt2, _, rfl⟩ := calcAsk_ok.1 e2
  obtain ⟨l4, hq3, hlt3, rfl⟩ := priceAsk_ok.1 e3
  obtain ⟨l5, hq4, hlt4, _, rfl⟩ := calcAsk_ok.1 e4
  refine ⟨rOut.min, ?_, fun b => ?_⟩
  · obtain ⟨p, src, dst, srcTp, dstTp, hv⟩ := verifySwap_inv hl hver
    obtain ⟨fin⟩ := finishSwap_inv hfin
    have hp5' := getPool_ok.1 hp5
    dsimp only at hp5'
    rw [hp2] at hp5'; injection hp5' with hp5'; subst hp5'
    exact ⟨{
      a, suffix, c, p, src, dst, srcTp, dstTp, ver := hv, w1, sacc, sr, sync0 := hs0, w2, dacc, dr,
      sync1 := hs1, p2, pool2 := hp2, l3, l4, l5, ext3 := env.calc_ext hq2, ext4 := env.price_ext hq3,
      ext5 := env.calc_ext hq4, inSol := rIn.min, outSol, fee, hfee, fin, nonzero := hnz, rIn, rOut, ask2 := hq2,
      inSol_eq := rfl, inSol_ne := hinne, inSol_lt := hlt2, ask3 := hq3, outSol_lt := hlt3, ask4 := hq4, out_eq := rfl,
      out_lt := hlt4, minOut := hmin, out_ne := hne }⟩
  · have hn' : require (args.amount ≠ 0) .zeroValue = .ok () := require_ok.2 hnz
    have hi' : require (rIn.min ≠ 0) .zeroValue = .ok () := require_ok.2 hinne
    have ho' : require (rOut.min ≠ 0) .zeroValue = .ok () := require_ok.2 hne
    simp only [processSwapExactIn, hl, hver, e0, e1, et, e2, e3, e4, hp5, hfee, hfin, hn', hi', ho', bind, Except.bind]
    unfold require
    by_cases hb' : b ≤ rOut.min <;> simp [hb']

theorem swapOut_slip {args : SwapExactOutArgs} (h : processSwapExactOut cfg L env w accs args = .ok w') :
    ∃ inp, Nonempty (SwapOutRun L env w accs args w' inp) ∧ ∀ b, b ≠ 0 → processSwapExactOut cfg L env w accs { args with maxAmountIn := b } =
      if inp ≤ b then .ok w' else .error .slippageToleranceExceeded := by
  simp only [processSwapExactOut, bind_ok, Prod.exists, require_ok, exists_const] at h
  obtain ⟨⟨hnz, hnz'⟩, a, suffix, hl, c, hver, w1, e0, w2, e1, t, et, rOut, w3, e2, hone, inSol, w4, e3, rIn, w5, e4, hmax, hne, p5, hp5, fee, hfee, hfin⟩ := h
  obtain ⟨sacc, sr, hs0⟩ := syncUnchecked_ok.1 e0
  obtain ⟨dacc, dr, hs1⟩ := syncUnchecked_ok.1 e1
  obtain ⟨p2, hp2, rfl⟩ := totalSolValue_ok.1 et
  obtain ⟨l3, hq2, _, hlt2, rfl⟩ := calcAsk_ok.1 e2
  obtain ⟨l4, hq3, hlt3, rfl⟩ := priceAsk_ok.1 e3
  obtain ⟨l5, hq4, _, hlt4, rfl⟩ := calcAsk_ok.1 e4
  refine ⟨rIn.max, ?_, fun b hb => ?_⟩
  · obtain ⟨p, src, dst, srcTp, dstTp, hv⟩ := verifySwap_inv hl hver
    obtain ⟨fin⟩ := finishSwap_inv hfin
    have hp5' := getPool_ok.1 hp5
    dsimp only at hp5'
    rw [hp2] at hp5'; injection hp5' with hp5'; subst hp5'
    exact ⟨{
      a, suffix, c, p, src, dst, srcTp, dstTp, ver := hv, w1, sacc, sr, sync0 := hs0, w2, dacc, dr,
      sync1 := hs1, p2, pool2 := hp2, l3, l4, l5, ext3 := env.calc_ext hq2, ext4 := env.price_ext hq3,
      ext5 := env.calc_ext hq4, inSol, outSol := rOut.max, fee, hfee, fin, nonzero := hnz, maxNonzero := hnz', rIn, rOut,
      ask2 := hq2, outSol_eq := rfl, outSol_ne := hone, outSol_lt := hlt2, ask3 := hq3, inSol_lt := hlt3, ask4 := hq4,
      in_eq := rfl, in_lt := hlt4, maxIn := hmax, in_ne := hne }⟩
  · have hn' : require (args.amount ≠ 0 ∧ b ≠ 0) .zeroValue = .ok () := require_ok.2 ⟨hnz, hb⟩
    have hi' : require (rOut.max ≠ 0) .zeroValue = .ok () := require_ok.2 hone
    have ho' : require (rIn.max ≠ 0) .zeroValue = .ok () := require_ok.2 hne
    simp only [processSwapExactOut, hl, hver, e0, e1, et, e2, e3, e4, hp5, hfee, hfin, hn', hi', ho', bind, Except.bind]
    unfold require
    by_cases hb' : rIn.max ≤ b <;> simp [hb']

/-- C77, SwapExactIn. If the swap goes through with some minimum, then what it pays does not depend on the minimum: with any minimum up to the amount paid it
goes through with the very same result, and with any larger one it fails with SlippageToleranceExceeded. -/
theorem C77_swapExactIn {args : SwapExactInArgs} (hq : env.Quiet) (h : processIx cfg L env tx w accs (.swapExactIn args) = .ok w') :
    ∃ out fee p src dst signer srcAcc dstAcc feeAcc srcRes dstRes,
      SwapMoves cfg w w' accs args.srcLstIndex args.dstLstIndex args.amount out fee p src dst signer srcAcc dstAcc feeAcc srcRes dstRes ∧
      ∀ b, processIx cfg L env tx w accs (.swapExactIn { args with minAmountOut := b }) =
        if b ≤ out then .ok w' else .error .slippageToleranceExceeded := by
  obtain ⟨out, ⟨r⟩, hb⟩ := swapIn_slip h
  have h2 : r.w2.led = w.led := (r.sync1.quiet hq).trans (r.sync0.quiet hq)
  have h5 : r.l5 = w.led := (hq.calcF r.ask4).trans ((hq.priceF r.ask3).trans ((hq.calcF r.ask2).trans h2))
  exact ⟨out, r.fee, _, _, _, _, _, _, _, _, _, r.toSwapRun.moves hq h5, hb⟩

/-- C77, SwapExactOut: likewise for the maximum. (A maximum of zero is refused as such.) -/
theorem C77_swapExactOut {args : SwapExactOutArgs} (hq : env.Quiet) (h : processIx cfg L env tx w accs (.swapExactOut args) = .ok w') :
    ∃ inp fee p src dst signer srcAcc dstAcc feeAcc srcRes dstRes,
      SwapMoves cfg w w' accs args.srcLstIndex args.dstLstIndex inp args.amount fee p src dst signer srcAcc dstAcc feeAcc srcRes dstRes ∧
      ∀ b, b ≠ 0 → processIx cfg L env tx w accs (.swapExactOut { args with maxAmountIn := b }) =
        if inp ≤ b then .ok w' else .error .slippageToleranceExceeded := by
  obtain ⟨inp, ⟨r⟩, hb⟩ := swapOut_slip h
  have h2 : r.w2.led = w.led := (r.sync1.quiet hq).trans (r.sync0.quiet hq)
  have h5 : r.l5 = w.led := (hq.calcF r.ask4).trans ((hq.priceF r.ask3).trans ((hq.calcF r.ask2).trans h2))
  exact ⟨inp, r.fee, _, _, _, _, _, _, _, _, _, r.toSwapRun.moves hq h5, hb⟩

/-- The raw run of a deposit, and what happens with another minimum. -/
theorem add_slip {args : AddLiquidityArgs} (h : processAddLiquidity cfg L env w accs args = .ok w') :
    ∃ r : AddLiqRun L env w accs args w', ∀ b, processAddLiquidity cfg L env w accs { args with minLpOut := b } =
      if b ≤ r.lp then .ok w' else .error .slippageToleranceExceeded := by
  simp only [processAddLiquidity, bind_ok, Prod.exists, require_ok, exists_const] at h
  obtain ⟨hnz, a, suffix, hl, c, hver, w1, e0, t1, et, v, w2, e1, vAfter, w3, e2, hle, p3, hp3, fees, hfees, su, hsu, lp, hlp, ⟨hrne, hlpne⟩, hmin, l4, h4,
    l5, h5, l6, h6, w7, e3, t2, et2, hno, hpure⟩ := h
  cases hpure
  obtain ⟨acc0, r0, hs0⟩ := syncUnchecked_ok.1 e0
  obtain ⟨p1, hp1, rfl⟩ := totalSolValue_ok.1 et
  obtain ⟨l2, hq1, hv, _, rfl⟩ := calcAsk_ok.1 e1
  obtain ⟨l3, hq2, hva, rfl⟩ := priceAsk_ok.1 e2
  obtain ⟨m, hm, rfl⟩ := mintSupply_ok.1 hsu
  obtain ⟨acc3, r3, hs3⟩ := syncUnchecked_ok.1 e3
  obtain ⟨p', hp', rfl⟩ := totalSolValue_ok.1 et2
  obtain ⟨p, s, tp, hv'⟩ := verifyLiq_inv hl hver
  have hp3' := getPool_ok.1 hp3
  dsimp only at hp3'
  rw [hp1] at hp3'; injection hp3' with hp3'; subst hp3'
  refine ⟨{
    a, suffix, c, p, s, tp, nonzero := hnz, ver := hv', w1, acc0, r0, sync0 := hs0, p1, pool1 := hp1, v, l2,
    ask1 := hq1, v_lt := hv, vAfter, l3, ask2 := hq2, vAfter_lt := hva, vAfter_le := hle, fees, hfees, lpMint := m,
    hlpMint := hm, lp, hlp, toReserves_ne := hrne, lp_ne := hlpne, minLp := hmin, l4, l5, l6, t1 := h4, t2 := h5,
    t3 := h6, acc3, r3, sync3 := hs3, p', pool' := hp', noLoss := hno }, fun b => ?_⟩
  have q1 : require (args.lstAmount ≠ 0) .zeroValue = .ok () := require_ok.2 hnz
  have q2 : require (vAfter ≤ v.min) .poolWouldLoseSolValue = .ok () := require_ok.2 hle
  have q3 : require (fees.toReserves ≠ 0 ∧ lp ≠ 0) .zeroValue = .ok () := require_ok.2 ⟨hrne, hlpne⟩
  have q4 : require (p1.totalSolValue ≤ p'.totalSolValue) .poolWouldLoseSolValue = .ok () := require_ok.2 hno
  simp only [processAddLiquidity, hl, hver, e0, et, e1, e2, hp3, hfees, hsu, hlp, h4, h5, h6, e3, et2, q1, q2, q3, q4, bind, Except.bind, pure, Except.pure]
  unfold require
  by_cases hb' : b ≤ lp <;> simp [hb']

theorem rem_slip {args : RemoveLiquidityArgs} (h : processRemoveLiquidity cfg L env w accs args = .ok w') :
    ∃ r : RemLiqRun L env w accs args w', ∀ b, processRemoveLiquidity cfg L env w accs { args with minLstOut := b } =
      if b ≤ r.out.min then .ok w' else .error .slippageToleranceExceeded := by
  simp only [processRemoveLiquidity, bind_ok, Prod.exists, require_ok, exists_const] at h
  obtain ⟨hnz, a, suffix, hl, c, hver, w1, e0, p1, hp1, su, hsu, v, hv, vAfter, w2, e1, hle, out, w3, e2, fee, hfee, hone, hmin, l4, h4, l5, h5, l6, h6, e3⟩ := h
  obtain ⟨acc0, r0, hs0⟩ := syncUnchecked_ok.1 e0
  obtain ⟨l2, hq1, hva, rfl⟩ := priceAsk_ok.1 e1
  obtain ⟨l3, hq2, hout, _, rfl⟩ := calcAsk_ok.1 e2
  obtain ⟨m, hm, rfl⟩ := mintSupply_ok.1 hsu
  obtain ⟨acc3, r3, hs3⟩ := syncUnchecked_ok.1 e3
  obtain ⟨p, s, tp, hv'⟩ := verifyLiq_inv hl hver
  refine ⟨{
    a, suffix, c, p, s, tp, nonzero := hnz, ver := hv', w1, acc0, r0, sync0 := hs0, p1, pool1 := getPool_ok.1 hp1,
    lpMint := m, hlpMint := hm, v, hv, vAfter, l2, ask1 := hq1, vAfter_lt := hva, vAfter_le := hle, out, l3,
    ask2 := hq2, out_lt := hout, fee, hfee, out_ne := hone, minOut := hmin, l4, l5, l6, t1 := h4, t2 := h5, t3 := h6,
    acc3, r3, sync3 := hs3 }, fun b => ?_⟩
  have q1 : require (args.lpTokenAmount ≠ 0) .zeroValue = .ok () := require_ok.2 hnz
  have q2 : require (vAfter ≤ v) .poolWouldLoseSolValue = .ok () := require_ok.2 hle
  have q3 : require (out.min ≠ 0) .zeroValue = .ok () := require_ok.2 hone
  simp only [processRemoveLiquidity, hl, hver, e0, hp1, hsu, hv, e1, e2, hfee, h4, h5, h6, e3, q1, q2, q3, bind, Except.bind]
  unfold require
  by_cases hb' : b ≤ out.min <;> simp [hb']

/-- C77, AddLiquidity: likewise for the minimum of LP tokens. -/
theorem C77_addLiquidity {args : AddLiquidityArgs} (hq : env.Quiet) (h : processIx cfg L env tx w accs (.addLiquidity args) = .ok w') :
    ∃ lp toRes toFee p s signer userLst userLp feeAcc res, LiqParties cfg w accs args.lstIndex p s signer userLst userLp feeAcc res ∧
      toRes + toFee = args.lstAmount ∧
      (∀ k, bal w'.led k + only userLst.key args.lstAmount k =
        bal w.led k + only res.key toRes k + only feeAcc.key toFee k + only userLp.key lp k) ∧
      ∀ b, processIx cfg L env tx w accs (.addLiquidity { args with minLpOut := b }) =
        if b ≤ lp then .ok w' else .error .slippageToleranceExceeded := by
  obtain ⟨r, hb⟩ := add_slip h
  have h1 : r.w1.led = w.led := r.sync0.quiet hq
  have h3 : r.l3 = w.led := (hq.priceF r.ask2).trans ((hq.calcF r.ask1).trans h1)
  have el : w'.led = r.l6 := r.sync3.quiet hq
  obtain ⟨hsum, _⟩ := depositFee_ok r.hfees
  refine ⟨r.lp, r.fees.toReserves, r.fees.toProtocolFees, _, _, _, _, _, _, _, r.ver.parties, hsum, fun k => ?_, hb⟩
  have b1 := transfer_bal r.t1 k
  have b2 := transfer_bal r.t2 k
  have b3 := mintTo_bal r.t3 k
  have b0 : bal r.l3 k = bal w.led k := congrArg (bal · k) h3
  rw [el]
  have : only r.a.userLst.key args.lstAmount k =
      only r.a.userLst.key r.fees.toReserves k + only r.a.userLst.key r.fees.toProtocolFees k := by
    rw [← hsum]; unfold only; split <;> rfl
  simp only at b1 b2 b3
  omega

/-- C77, RemoveLiquidity: likewise for the minimum of LSTs. -/
theorem C77_removeLiquidity {args : RemoveLiquidityArgs} (hq : env.Quiet) (h : processIx cfg L env tx w accs (.removeLiquidity args) = .ok w') :
    ∃ out fee p s signer userLst userLp feeAcc res, LiqParties cfg w accs args.lstIndex p s signer userLst userLp feeAcc res ∧
      (∀ k, bal w'.led k + only userLp.key args.lpTokenAmount k + only res.key (out + fee) k =
        bal w.led k + only userLst.key out k + only feeAcc.key fee k) ∧
      ∀ b, processIx cfg L env tx w accs (.removeLiquidity { args with minLstOut := b }) =
        if b ≤ out then .ok w' else .error .slippageToleranceExceeded := by
  obtain ⟨r, hb⟩ := rem_slip h
  have h1 : r.w1.led = w.led := r.sync0.quiet hq
  have h3 : r.l3 = w.led := (hq.calcF r.ask2).trans ((hq.priceF r.ask1).trans h1)
  have el : w'.led = r.l6 := r.sync3.quiet hq
  refine ⟨r.out.min, r.fee, _, _, _, _, _, _, _, r.ver.parties, fun k => ?_, hb⟩
  have b1 := burn_bal r.t1 k
  have b2 := transfer_bal r.t2 k
  have b3 := transfer_bal r.t3 k
  have b0 : bal r.l3 k = bal w.led k := congrArg (bal · k) h3
  rw [el]
  have : only r.a.poolReserves.key (r.out.min + r.fee) k =
      only r.a.poolReserves.key r.out.min k + only r.a.poolReserves.key r.fee k := by
    unfold only; split <;> rfl
  simp only at b1 b2 b3
  omega
end

/-! ### Examples -/
namespace Ex

/-- The error of a failed instruction. -/
def failure (r : R World) : Option Err :=
  match r with
  | .ok _ => none
  | .error e => some e

-- the swap of 3000 of LST 21 of the example pays 1980: a minimum of 1980 is met, 1981 is not
example : failure (processIx cfg .ex env ⟨[], 0⟩ (st 5) swapAB (.swapExactIn ⟨1, 1, 0, 1, 1980, 3000⟩)) = none ∧
    failure (processIx cfg .ex env ⟨[], 0⟩ (st 5) swapAB (.swapExactIn ⟨1, 1, 0, 1, 1981, 3000⟩)) = some .slippageToleranceExceeded := by
  decide +kernel
-- the swap for 2000 of LST 22 takes 3031
example : failure (processIx cfg .ex env ⟨[], 0⟩ (st 6) swapAB (.swapExactOut ⟨1, 1, 0, 1, 3031, 2000⟩)) = none ∧
    failure (processIx cfg .ex env ⟨[], 0⟩ (st 6) swapAB (.swapExactOut ⟨1, 1, 0, 1, 3030, 2000⟩)) = some .slippageToleranceExceeded := by
  decide +kernel
-- the deposit of 20000 of LST 22 mints 30000 LP tokens
example : failure (processIx cfg .ex env ⟨[], 0⟩ (st 4) liqB (.addLiquidity ⟨1, 1, 20000, 30000⟩)) = none ∧
    failure (processIx cfg .ex env ⟨[], 0⟩ (st 4) liqB (.addLiquidity ⟨1, 1, 20000, 30001⟩)) = some .slippageToleranceExceeded := by
  decide +kernel
end Ex
end S
