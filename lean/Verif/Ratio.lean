import Verif.Base
/-
Model of the external crate `sanctum-token-ratio` 0.2.0 (`/repo/Cargo.toml` workspace dependency), whose
source is not part of /repo. The formulas below are the only ones of this shape consistent with every test
vector in /repo that exercises the crate (checked by the `example`s at the end of this file); the behaviours
no vector pins down are fields of `RatioLib`, over which every theorem quantifies.
-/
set_option autoImplicit false
namespace S

/-- `U64ValueRange` of the crate: a range of u64 values. -/
structure Range where
  min : Nat
  max : Nat
deriving DecidableEq, Repr

/-- `U64ValueRange::single`. -/
def Range.single (x : Nat) : Range := ⟨x, x⟩

/-- Behaviour of the crate on degenerate inputs. Universally quantified in every theorem. -/
structure RatioLib where
  /-- `FloorDiv(U64Ratio{num, denom: 0}).apply(amt)` -/
  applyDenom0 : (num amt : Nat) → R Nat
  /-- `FloorDiv(U64Ratio{num, denom}).reverse(y)` when `num = 0` or `denom = 0` -/
  reverseDegen : (num denom y : Nat) → R Range
  /-- `reverse_from_amt_after_fee(y)` of a 100% fee -/
  feeReverseFull : (y : Nat) → R Range
  applyDenom0_u64 : ∀ n a r, applyDenom0 n a = .ok r → r < U64
  reverseDegen_u64 : ∀ n d y r, reverseDegen n d y = .ok r → r.min ≤ r.max ∧ r.max < U64
  feeReverseFull_u64 : ∀ y r, feeReverseFull y = .ok r → r.min ≤ r.max ∧ r.max < U64

/-- `FloorDiv(U64Ratio{num, denom}).apply(amt)`: `floor(amt * num / denom)`; error if it does not fit u64. -/
def floorApply (L : RatioLib) (num denom amt : Nat) : R Nat :=
  if denom = 0 then L.applyDenom0 num amt else toU64 (amt * num / denom)

/-- `FloorDiv(U64Ratio{num, denom}).reverse(y)`. -/
def floorReverse (L : RatioLib) (num denom y : Nat) : R Range :=
  if num = 0 ∨ denom = 0 then L.reverseDegen num denom y
  else do
    let min ← toU64 (denom * y / num)
    let max ← toU64 (cdiv (denom * (y + 1)) num)
    pure ⟨min, max⟩

/-- `AmtsAfterFee` of the crate. -/
structure AmtsAfterFee where
  amtAfterFee : Nat
  feeCharged : Nat
deriving DecidableEq, Repr

/-- `U64FeeRatio::try_from_fee_num_and_denom`: fees above 100% are an error. -/
def feeNew (num denom : Nat) : R Unit := require (num ≤ denom) .math

/-- Fee charged by `CeilDiv(U64FeeRatio{num, denom})`. -/
def ceilFee (num denom amt : Nat) : Nat := if num = 0 ∨ denom = 0 then 0 else cdiv (amt * num) denom

/-- Fee charged by `FloorDiv(U64FeeRatio{num, denom})`. -/
def floorFee (num denom amt : Nat) : Nat := if num = 0 ∨ denom = 0 then 0 else amt * num / denom

/-- `CeilDiv(U64FeeRatio{num, denom}).apply(amt)`, on a fee accepted by `feeNew`. -/
def ceilFeeApply (num denom amt : Nat) : R AmtsAfterFee := do
  let a ← subU64 amt (ceilFee num denom amt)
  pure ⟨a, ceilFee num denom amt⟩

/-- `FloorDiv(U64FeeRatio{num, denom}).apply(amt)`, on a fee accepted by `feeNew`. -/
def floorFeeApply (num denom amt : Nat) : R AmtsAfterFee := do
  let a ← subU64 amt (floorFee num denom amt)
  pure ⟨a, floorFee num denom amt⟩

/-- `CeilDiv(U64FeeRatio{num, denom}).reverse_from_amt_after_fee(y)`. -/
def ceilFeeReverse (L : RatioLib) (num denom y : Nat) : R Range :=
  if num = 0 ∨ denom = 0 then pure (Range.single y)
  else if num = denom then L.feeReverseFull y
  else do
    let min ← toU64 (denom * y / (denom - num))
    let max ← toU64 (cdiv (denom * (y + 1)) (denom - num))
    pure ⟨min, max⟩

/-- `FloorDiv(U64FeeRatio{num, denom}).reverse_from_amt_after_fee(y)`. -/
def floorFeeReverse (L : RatioLib) (num denom y : Nat) : R Range :=
  if num = 0 ∨ denom = 0 then pure (Range.single y)
  else if num = denom then L.feeReverseFull y
  else do
    let min ← toU64 (denom * (y - 1) / (denom - num))
    let max ← toU64 (cdiv (denom * y) (denom - num))
    pure ⟨min, max⟩

/-- `BPS_DENOMINATOR` of the crate. -/
abbrev BPS : Nat := 10000

/-- `CeilDiv(U64BpsFee::try_new(bps)?).apply(amt)?`. -/
def bpsCeilFeeApply (bps amt : Nat) : R AmtsAfterFee := do
  feeNew bps BPS
  ceilFeeApply bps BPS amt

/-- `U64ValueRange::try_from_min_max`. -/
def rangeNew (min max : Nat) : R Range := do
  require (min ≤ max) .math
  pure ⟨min, max⟩

/-- A concrete instance of the unspecified behaviours, used only in examples. -/
def RatioLib.ex : RatioLib where
  applyDenom0 _ _ := .ok 0
  reverseDegen _ _ _ := .ok ⟨0, 0⟩
  feeReverseFull _ := .ok ⟨0, 0⟩
  applyDenom0_u64 := by intro _ _ r h; injection h with h; subst h; decide
  reverseDegen_u64 := by intro _ _ _ r h; injection h with h; subst h; decide
  feeReverseFull_u64 := by intro _ r h; injection h with h; subst h; decide

/-! In-repo test vectors of the crate's formulas (state decoded from `/repo/test-fixtures/*.json`). -/

-- programs/sol-value-calculator-programs/lido-calculator/tests/tests/{lst_to_sol,sol_to_lst}.rs
example : floorApply .ex 916562524092677 798610660031354 1000000000 = .ok 1147696330 := rfl
example : floorReverse .ex 916562524092677 798610660031354 1147696330 = .ok ⟨999999999, 1000000001⟩ := rfl
-- programs/sol-value-calculator-programs/spl-calculator/tests/tests/sol_to_lst.rs (jito, fee 1/1000)
example : ceilFeeReverse .ex 1 1000 998999999 = .ok ⟨999999998, 1000000000⟩ := rfl
example : ceilFeeReverse .ex 1 1000 999000001 = .ok ⟨1000000001, 1000000003⟩ := rfl
-- programs/sol-value-calculator-programs/marinade-calculator/tests/tests/sol_to_lst.rs (fee 1500/1000000)
example : floorFeeReverse .ex 1500 1000000 1162900315 = .ok ⟨1164647284, 1164647286⟩ := rfl

end S
