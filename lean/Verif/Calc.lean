import Verif.Ratio
/-
Model of `libs/s-controller-lib/src/calc.rs` (all functions) and the numeric part of
`libs/s-controller-lib/src/state.rs`.
-/
set_option autoImplicit false
namespace S

/-- `LpTokenRateArgs`, libs/s-controller-lib/src/calc.rs:5-9. -/
structure LpTokenRateArgs where
  lpTokenSupply : Nat
  poolTotalSolValue : Nat
deriving DecidableEq, Repr

/-- `calc_lp_tokens_to_mint`, libs/s-controller-lib/src/calc.rs:16-42. -/
def calcLpTokensToMint (L : RatioLib) (r : LpTokenRateArgs) (finalSolValueToAdd : Nat) : R Nat :=
  if r.lpTokenSupply = 0 then addU64 r.poolTotalSolValue finalSolValueToAdd
  else if r.poolTotalSolValue = 0 then pure finalSolValueToAdd
  else floorApply L r.lpTokenSupply r.poolTotalSolValue finalSolValueToAdd

/-- `calc_lp_tokens_sol_value`, libs/s-controller-lib/src/calc.rs:45-60. -/
def calcLpTokensSolValue (L : RatioLib) (r : LpTokenRateArgs) (lpTokensAmount : Nat) : R Nat :=
  if r.poolTotalSolValue = 0 ∨ r.lpTokenSupply = 0 then pure 0
  else floorApply L r.poolTotalSolValue r.lpTokenSupply lpTokensAmount

/-- `CalcAddLiquidityProtocolFeesResult`, libs/s-controller-lib/src/calc.rs:76-83. -/
structure AddLiquidityFees where
  toReserves : Nat
  toProtocolFees : Nat
deriving DecidableEq, Repr

/-- `calc_add_liquidity_protocol_fees`, libs/s-controller-lib/src/calc.rs:85-108
(`saturating_sub` is truncated subtraction of naturals). -/
def calcAddLiquidityProtocolFees (L : RatioLib)
    (lstAmount lstAmountSolValue lstAmountSolValueAfterFees lpProtocolFeeBps : Nat) :
    R AddLiquidityFees := do
  let aaf ← bpsCeilFeeApply lpProtocolFeeBps (lstAmountSolValue - lstAmountSolValueAfterFees)
  let toProtocolFees ← floorApply L lstAmount lstAmountSolValue aaf.feeCharged
  let toReserves ← subU64 lstAmount toProtocolFees
  pure ⟨toReserves, toProtocolFees⟩

/-- `calc_remove_liquidity_protocol_fees`, libs/s-controller-lib/src/calc.rs:125-142. -/
def calcRemoveLiquidityProtocolFees (L : RatioLib)
    (lpTokensSolValue lpTokensSolValueAfterFees toUserLstAmount lpProtocolFeeBps : Nat) : R Nat := do
  let aaf ← bpsCeilFeeApply lpProtocolFeeBps (lpTokensSolValue - lpTokensSolValueAfterFees)
  floorApply L toUserLstAmount lpTokensSolValueAfterFees aaf.feeCharged

/-- `calc_swap_protocol_fees`, libs/s-controller-lib/src/calc.rs:160-177. -/
def calcSwapProtocolFees (L : RatioLib)
    (inSolValue outSolValue dstLstOut tradingProtocolFeeBps : Nat) : R Nat := do
  let aaf ← bpsCeilFeeApply tradingProtocolFeeBps (inSolValue - outSolValue)
  floorApply L dstLstOut outSolValue aaf.feeCharged

/-- New `total_sol_value` computed by `sync_sol_value_with_retval`,
libs/s-controller-lib/src/state.rs:8-24 (lines 13-18). -/
def syncedTotal (total old new : Nat) : R Nat := do
  let x ← subU64 total old
  addU64 x new

end S
