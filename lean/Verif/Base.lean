/-
Plumbing shared by every model file: error type, the `Except` monad used by all modelled functions,
checked machine arithmetic.
-/
set_option autoImplicit false
namespace S

/-- Errors a modelled program can return.

`generated/s_controller_interface/src/errors.rs:8-84` (SControllerError, all 37 codes),
`generated/pricing-programs/flat_fee_interface/src/errors.rs` (FlatFeeError),
`generated/sol-value-calculator-programs/*/src/errors.rs`,
and the `solana_program::program_error::ProgramError` values the code produces.
Simplification: one flat type for all programs; `token` stands for every error of the SPL token programs,
`decode` for every borsh/bytemuck decoding error, `system` for every system-program error. -/
inductive Err
  -- SControllerError
  | invalidPoolStateData | invalidLstStateListData | invalidDisablePoolAuthorityListData
  | invalidRebalanceRecordData | math | poolRebalancing | poolDisabled | poolEnabled
  | invalidLstIndex | invalidReserves | incorrectSolValueCalculator | faultySolValueCalculator
  | incorrectLstStateList | incorrectPoolState | lstInputDisabled | noSucceedingEndRebalance
  | incorrectRebalanceRecord | poolNotRebalancing | poolWouldLoseSolValue | lstStillHasValue
  | incorrectPricingProgram | slippageToleranceExceeded | notEnoughLiquidity | indexTooLarge
  | invalidDisablePoolAuthorityIndex | unauthorizedDisablePoolAuthoritySigner
  | invalidDisablePoolAuthority | unauthorizedSetRebalanceAuthoritySigner
  | incorrectDisablePoolAuthorityList | feeTooHigh | notEnoughFees | zeroValue
  | faultyPricingProgram | incorrectLpMintInitialization | duplicateLst | swapSameLst
  | duplicateDisablePoolAuthority
  -- ProgramError
  | invalidArgument | invalidAccountData | missingRequiredSignature | notEnoughAccountKeys
  | incorrectProgramId | invalidInstructionData | illegalOwner
  -- other programs
  | token | system | decode
  -- flat fee pricing program
  | flatFeeMath | signedFeeOutOfBound | unsignedFeeOutOfBound | unsupportedLstMint
  | wrongFeeAccount | incorrectProgramState | invalidProgramStateData | invalidFeeAccountData
  -- generic pool calculators
  | invalidStakePoolProgramData | invalidCalculatorStateData | unexpectedProgramUpgrade
  | wrongPoolProgram | wrongCalculatorStatePda | poolNotUpdated | exchangeRateNotUpdated
  | marinadePaused | marinadeStakeWithdrawDisabled
  -- off-chain (anyhow) errors of the Jupiter interface
  | notReady | unknownPricingProgram | wrongLstMint | unsupportedMode | panic
deriving DecidableEq, Repr

/-- Result type of every modelled function. -/
abbrev R (α : Type) := Except Err α

/-- `if !cond { return Err(e) }`. -/
def require (c : Prop) [Decidable c] (e : Err) : R Unit := if c then .ok () else .error e

theorem bind_ok {α β : Type} {x : R α} {f : α → R β} {b : β} :
    (x >>= f) = .ok b ↔ ∃ a, x = .ok a ∧ f a = .ok b := by
  cases x <;> simp [bind, Except.bind]

theorem require_ok {c : Prop} [Decidable c] {e : Err} {u : Unit} :
    require c e = .ok u ↔ c := by
  unfold require; split <;> simp_all

theorem require_bind_ok {β : Type} {c : Prop} [Decidable c] {e : Err} {f : Unit → R β} {b : β} :
    (require c e >>= f) = .ok b ↔ c ∧ f () = .ok b := by
  rw [bind_ok]; constructor
  · rintro ⟨_, h, h'⟩; exact ⟨require_ok.1 h, h'⟩
  · rintro ⟨h, h'⟩; exact ⟨(), require_ok.2 h, h'⟩

theorem pure_ok {α : Type} {a b : α} : (pure a : R α) = .ok b ↔ a = b := by
  simp [pure, Except.pure]

theorem map_ok {α β : Type} {x : R α} {f : α → β} {b : β} :
    (f <$> x) = .ok b ↔ ∃ a, x = .ok a ∧ f a = b := by
  cases x <;> simp [Functor.map, Except.map]

/-- One more than the largest u64. -/
abbrev U64 : Nat := 2 ^ 64

/-- Conversion of a wide intermediate value back to u64 (`try_into().map_err(MathError)`). -/
def toU64 (n : Nat) (e : Err := .math) : R Nat := if n < U64 then .ok n else .error e

theorem toU64_ok {n m : Nat} {e : Err} : toU64 n e = .ok m ↔ m = n ∧ n < U64 := by
  unfold toU64; split
  · rename_i h; constructor
    · intro h'; injection h' with h'; exact ⟨h'.symm, h⟩
    · rintro ⟨rfl, _⟩; rfl
  · simp_all

/-- `a.checked_add(b).ok_or(e)` on u64. -/
def addU64 (a b : Nat) (e : Err := .math) : R Nat := toU64 (a + b) e

/-- `a.checked_sub(b).ok_or(e)` on u64. -/
def subU64 (a b : Nat) (e : Err := .math) : R Nat := if b ≤ a then .ok (a - b) else .error e

theorem addU64_ok {a b m : Nat} {e : Err} : addU64 a b e = .ok m ↔ m = a + b ∧ a + b < U64 := toU64_ok

theorem subU64_ok {a b m : Nat} {e : Err} : subU64 a b e = .ok m ↔ m = a - b ∧ b ≤ a := by
  unfold subU64; split
  · rename_i h; constructor
    · intro h'; injection h' with h'; exact ⟨h'.symm, h⟩
    · rintro ⟨rfl, _⟩; rfl
  · simp_all

/-- Ceiling division. -/
def cdiv (a b : Nat) : Nat := (a + b - 1) / b

end S
