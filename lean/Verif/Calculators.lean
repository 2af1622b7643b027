import Verif.Ratio
/-
Model of the pure SOL value calculators, `libs/sol-value-calculator-programs/*-calculator-lib/src/calc.rs`
and `wsol-calculator-lib/src/lib.rs`.
-/
set_option autoImplicit false
namespace S

/-- `trait SolValueCalculator`, libs/sol-value-calculator-programs/sol-value-calculator-lib/src/lib.rs:1-7. -/
structure Calculator where
  lstToSol : Nat → R Range
  solToLst : Nat → R Range

/-- `LidoCalc`, lido-calculator-lib/src/calc.rs:8-13. -/
structure LidoCalc where
  computedInEpoch : Nat
  stSolSupply : Nat
  solBalance : Nat
deriving DecidableEq, Repr

/-- `LidoCalc::verify_pool_updated_for_this_epoch`, lido-calculator-lib/src/calc.rs:52-64. -/
def LidoCalc.verifyUpdated (c : LidoCalc) (thisEpoch : Nat) : R Unit :=
  require (c.computedInEpoch = thisEpoch) .exchangeRateNotUpdated

/-- `impl SolValueCalculator for LidoCalc`, lido-calculator-lib/src/calc.rs:66-95. -/
def LidoCalc.calculator (L : RatioLib) (c : LidoCalc) : Calculator where
  lstToSol poolTokens := do
    let x ← floorApply L c.solBalance c.stSolSupply poolTokens
    pure (Range.single x)
  solToLst withdrawLamports := floorReverse L c.solBalance c.stSolSupply withdrawLamports

/-- `SplStakePoolCalc`, spl-calculator-lib/src/calc.rs:10-17. -/
structure SplCalc where
  lastUpdateEpoch : Nat
  totalLamports : Nat
  poolTokenSupply : Nat
  feeNum : Nat
  feeDenom : Nat
deriving DecidableEq, Repr

/-- `SplStakePoolCalc::verify_pool_updated_for_this_epoch`, spl-calculator-lib/src/calc.rs:50-59. -/
def SplCalc.verifyUpdated (c : SplCalc) (thisEpoch : Nat) : R Unit :=
  require (c.lastUpdateEpoch = thisEpoch) .poolNotUpdated

/-- `impl SolValueCalculator for SplStakePoolCalc`, spl-calculator-lib/src/calc.rs:61-104. -/
def SplCalc.calculator (L : RatioLib) (c : SplCalc) : Calculator where
  lstToSol poolTokens := do
    feeNew c.feeNum c.feeDenom
    let aaf ← ceilFeeApply c.feeNum c.feeDenom poolTokens
    let withdrawLamports ← floorApply L c.totalLamports c.poolTokenSupply aaf.amtAfterFee
    pure (Range.single withdrawLamports)
  solToLst withdrawLamports := do
    let r ← floorReverse L c.totalLamports c.poolTokenSupply withdrawLamports
    feeNew c.feeNum c.feeDenom
    let rmin ← ceilFeeReverse L c.feeNum c.feeDenom r.min
    let rmax ← ceilFeeReverse L c.feeNum c.feeDenom r.max
    rangeNew rmin.min rmax.max

/-- `MarinadeStateCalc`, marinade-calculator-lib/src/calc.rs:13-24. -/
structure MarinadeCalc where
  paused : Bool
  delayedUnstakeCoolingDown : Nat
  emergencyCoolingDown : Nat
  totalActiveBalance : Nat
  availableReserveBalance : Nat
  circulatingTicketBalance : Nat
  msolSupply : Nat
  withdrawStakeAccountEnabled : Bool
  withdrawStakeAccountFeeCents : Nat
deriving DecidableEq, Repr

/-- `MAX_BP_CENTS`, marinade-calculator-lib/src/calc.rs:10. -/
abbrev MAX_BP_CENTS : Nat := 1000000

/-- `MarinadeStateCalc::verify_can_withdraw_stake`, marinade-calculator-lib/src/calc.rs:75-83. -/
def MarinadeCalc.verifyCanWithdrawStake (c : MarinadeCalc) : R Unit := do
  require (c.paused = false) .marinadePaused
  require (c.withdrawStakeAccountEnabled = true) .marinadeStakeWithdrawDisabled

/-- `total_cooling_down`, `total_lamports_under_control`, `total_virtual_staked_lamports`,
marinade-calculator-lib/src/calc.rs:85-102 (`None` becomes `MathError` at its only uses, 121 and 133). -/
def MarinadeCalc.totalVirtualStaked (c : MarinadeCalc) : R Nat := do
  let tcd ← addU64 c.delayedUnstakeCoolingDown c.emergencyCoolingDown
  let a ← addU64 c.totalActiveBalance tcd
  let b ← addU64 a c.availableReserveBalance
  pure (b - c.circulatingTicketBalance)

/-- `impl SolValueCalculator for MarinadeStateCalc`, marinade-calculator-lib/src/calc.rs:104-138. -/
def MarinadeCalc.calculator (L : RatioLib) (c : MarinadeCalc) : Calculator where
  lstToSol msolAmount := do
    let num ← c.totalVirtualStaked
    let solValueOfMsolBurned ← floorApply L num c.msolSupply msolAmount
    feeNew c.withdrawStakeAccountFeeCents MAX_BP_CENTS
    let aaf ← floorFeeApply c.withdrawStakeAccountFeeCents MAX_BP_CENTS solValueOfMsolBurned
    pure (Range.single aaf.amtAfterFee)
  solToLst lamportsForUser := do
    feeNew c.withdrawStakeAccountFeeCents MAX_BP_CENTS
    let r ← floorFeeReverse L c.withdrawStakeAccountFeeCents MAX_BP_CENTS lamportsForUser
    let num ← c.totalVirtualStaked
    let rmin ← floorReverse L num c.msolSupply r.min
    let rmax ← floorReverse L num c.msolSupply r.max
    rangeNew rmin.min rmax.max

/-- `impl SolValueCalculator for WsolSolCalc`, wsol-calculator-lib/src/lib.rs:11-22. -/
def wsolCalculator : Calculator where
  lstToSol lstAmount := pure (Range.single lstAmount)
  solToLst lamportsAmount := pure (Range.single lamportsAmount)

/-- The SOL value calculators of the repository: Lido, SPL (also used by the Sanctum SPL and Sanctum SPL Multi
programs, `programs/sol-value-calculator-programs/{spl,sanctum-spl,sanctum-spl-multi}-calculator`),
Marinade and wrapped SOL. -/
inductive AnyCalc
  | lido (c : LidoCalc)
  | spl (c : SplCalc)
  | marinade (c : MarinadeCalc)
  | wsol
deriving DecidableEq, Repr

def AnyCalc.calculator (L : RatioLib) : AnyCalc → Calculator
  | .lido c => c.calculator L
  | .spl c => c.calculator L
  | .marinade c => c.calculator L
  | .wsol => wsolCalculator

/-! In-repo test vectors (fixture values decoded from /repo/test-fixtures). -/

-- programs/sol-value-calculator-programs/spl-calculator/tests/tests (jito stake pool)
example : (SplCalc.calculator .ex ⟨0, 6636671656500264, 6182849530219135, 1, 1000⟩).lstToSol 1000000000
    = .ok (Range.single 1072326756) := rfl
-- programs/sol-value-calculator-programs/marinade-calculator/tests/tests
example : (MarinadeCalc.calculator .ex
    ⟨false, 0, 0, 6276768438208055, 0, 0, 5389415762673722, true, 1500⟩).lstToSol 1000000000
    = .ok (Range.single 1162900315) := rfl
example : (MarinadeCalc.calculator .ex
    ⟨false, 0, 0, 6276768438208055, 0, 0, 5389415762673722, true, 1500⟩).solToLst 1162900315
    = .ok ⟨999999998, 1000000002⟩ := rfl

end S
