import Verif.Ratio
/-
Model of `libs/pricing-programs/flat-fee-lib/src/{calc/*,fee_bound.rs}` and of the no-fee pricing program.
Fees are in basis points; `i16` values are integers, checked to fit where the code checks.
-/
set_option autoImplicit false
namespace S

/-- `x.map_err(|_e| e)`. -/
def mapErr {α : Type} (e : Err) : R α → R α
  | .ok a => .ok a
  | .error _ => .error e

theorem mapErr_ok {α : Type} {e : Err} {x : R α} {a : α} : mapErr e x = .ok a ↔ x = .ok a := by
  cases x <;> simp [mapErr]

/-- Checked `i16` result. -/
def toI16 (x : Int) : R Int := if -32768 ≤ x ∧ x ≤ 32767 then .ok x else .error .flatFeeMath

theorem toI16_ok {x y : Int} : toI16 x = .ok y ↔ y = x ∧ -32768 ≤ x ∧ x ≤ 32767 := by
  unfold toI16; split
  · rename_i h; constructor
    · intro h'; injection h' with h'; exact ⟨h'.symm, h⟩
    · rintro ⟨rfl, _⟩; rfl
  · simp_all

/-- `out_sol_value_ratio`, libs/pricing-programs/flat-fee-lib/src/calc/common.rs:14-36: the numerator, over 10000, of the ratio of
out SOL value to in SOL value. -/
def outSolValueRatio (inputFeeBps outputFeeBps : Int) : R Nat := do
  let fee ← toI16 (inputFeeBps + outputFeeBps)
  let post ← toI16 (10000 - fee)
  require (0 ≤ post) .flatFeeMath
  pure post.toNat

/-- `calculate_price_exact_in`, libs/pricing-programs/flat-fee-lib/src/calc/price_exact_in.rs:14-27. -/
def flatPriceExactIn (L : RatioLib) (inputFeeBps outputFeeBps : Int) (inSolValue : Nat) : R Nat := do
  let n ← outSolValueRatio inputFeeBps outputFeeBps
  mapErr .flatFeeMath (floorApply L n BPS inSolValue)

/-- `calculate_price_exact_out`, libs/pricing-programs/flat-fee-lib/src/calc/price_exact_out.rs:14-28. -/
def flatPriceExactOut (L : RatioLib) (inputFeeBps outputFeeBps : Int) (outSolValue : Nat) : R Nat := do
  let n ← outSolValueRatio inputFeeBps outputFeeBps
  let r ← mapErr .flatFeeMath (floorReverse L n BPS outSolValue)
  pure r.max

/-- `calculate_price_lp_tokens_to_redeem`, libs/pricing-programs/flat-fee-lib/src/calc/price_lp_tokens_to_redeem.rs:4-13. -/
def flatPriceRedeem (lpWithdrawalFeeBps solValue : Nat) : R Nat := do
  let aaf ← mapErr .flatFeeMath (bpsCeilFeeApply lpWithdrawalFeeBps solValue)
  pure aaf.amtAfterFee

/-- `verify_signed_fee_bps_bound`, libs/pricing-programs/flat-fee-lib/src/fee_bound.rs:6-11. -/
def verifySignedFee (f : Int) : R Unit := require (-10000 ≤ f ∧ f ≤ 10000) .signedFeeOutOfBound

/-- `verify_unsigned_fee_bps_bound`, libs/pricing-programs/flat-fee-lib/src/fee_bound.rs:13-18. -/
def verifyUnsignedFee (f : Nat) : R Unit := require (f ≤ 10000) .unsignedFeeOutOfBound

/-! In-repo test vectors. -/

-- libs/pricing-programs/flat-fee-lib/src/calc and programs/pricing-programs/flat-fee/tests: fees cancel out, rebates allowed
example : flatPriceExactIn .ex 100 0 1000000000 = .ok 990000000 := rfl
example : flatPriceExactIn .ex (-100) 0 1000000000 = .ok 1010000000 := rfl
example : flatPriceRedeem 5 1000000001 = .ok 999500000 := rfl

end S
