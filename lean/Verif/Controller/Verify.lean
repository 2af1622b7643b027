import Verif.World
/-
Checks, CPI wrappers and the sync subroutine shared by the instruction processors of the S controller
(`programs/s-controller/src/{verify.rs,cpi/*.rs,processor/sync_sol_value.rs}`,
`libs/s-controller-lib/src/{lst_state_list.rs,pda.rs,accounts_serde.rs}`).
-/
set_option autoImplicit false
namespace S

/-- `*_verify_account_keys` + `log_and_return_wrong_acc_err`, generated/s_controller_interface/src/instructions.rs:
every listed (actual, expected) pair must agree. Pairs whose two sides are the same account are left out. -/
def checkKeys (ps : List (Pubkey × Pubkey)) : R Unit := require (∀ p ∈ ps, p.1 = p.2) .invalidArgument

/-- `*_verify_writable_privileges`, generated/s_controller_interface/src/instructions.rs. -/
def checkWritable (as : List Acc) : R Unit := require (∀ a ∈ as, a.writable = true) .invalidAccountData

/-- `*_verify_signer_privileges`, generated/s_controller_interface/src/instructions.rs. -/
def checkSigner (as : List Acc) : R Unit := require (∀ a ∈ as, a.signer = true) .missingRequiredSignature

/-- `try_pool_state` on the pool state account, libs/s-controller-lib/src/accounts_serde.rs:6-8. -/
def getPool (w : World) : R PoolState := okOr w.ctl.pool .invalidPoolStateData

/-- `try_match_lst_mint_on_list`, libs/s-controller-lib/src/lst_state_list.rs:6-18. -/
def matchLst (mint : Pubkey) (lsts : List LstState) (i : Nat) : R LstState := do
  let s ← okOr lsts[i]? .invalidLstIndex
  require (mint = s.mint) .invalidLstIndex
  pure s

/-- `create_pool_reserves_address`, libs/s-controller-lib/src/pda.rs:11-37. -/
def poolReserves (cfg : Cfg) (s : LstState) (tokenProgram : Pubkey) : R Pubkey :=
  okOr (cfg.ata cfg.poolState tokenProgram s.mint s.poolReservesBump) .invalidReserves

/-- `create_protocol_fee_accumulator_address`, libs/s-controller-lib/src/pda.rs:39-68. -/
def feeAccumulator (cfg : Cfg) (s : LstState) (tokenProgram : Pubkey) : R Pubkey :=
  okOr (cfg.ata cfg.protocolFee tokenProgram s.mint s.protocolFeeAccumulatorBump) .invalidReserves

/-- `verify_not_rebalancing_and_not_disabled`, programs/s-controller/src/verify.rs:21-31. -/
def verifyActive (p : PoolState) : R Unit := do
  require (¬ isTrue p.isRebalancing) .poolRebalancing
  require (¬ isTrue p.isDisabled) .poolDisabled

/-- `verify_lst_input_not_disabled`, programs/s-controller/src/verify.rs:33-38. -/
def verifyInputEnabled (s : LstState) : R Unit := require (¬ isTrue s.isInputDisabled) .lstInputDisabled

/-- `verify_admin_or_disable_pool_authority`, programs/s-controller/src/verify.rs:40-53. -/
def verifyAdminOrAuth (signer : Pubkey) (p : PoolState) (auths : List Pubkey) : R Unit :=
  require (signer = p.admin ∨ signer ∈ auths) .invalidDisablePoolAuthority

/-- `SolValueCalculatorCpi`, programs/s-controller/src/cpi/sol_value_calculator.rs:15-25. -/
structure CalcCpi where
  program : Pubkey
  mint : Pubkey
  remaining : List Acc
deriving DecidableEq, Repr

/-- `from_lst_mint_and_account_suffix_slice`, programs/s-controller/src/cpi/sol_value_calculator.rs:32-46. -/
def CalcCpi.ofSuffix (mint : Pubkey) (suffix : List Acc) : R CalcCpi :=
  match suffix with
  | [] => .error .notEnoughAccountKeys
  | prog :: rest => .ok ⟨prog.key, mint, rest⟩

/-- `verify_lst_sol_val_calc_cpi`, programs/s-controller/src/verify.rs:73-87 and
`verify_correct_sol_value_calculator_program`, cpi/sol_value_calculator.rs:51-67. -/
def verifyCalcCpi (lsts : List LstState) (mint : Pubkey) (suffix : List Acc) (i : Nat) : R CalcCpi := do
  let c ← CalcCpi.ofSuffix mint suffix
  let s ← okOr lsts[i]? .invalidLstIndex
  require (c.program = s.solValueCalculator) .incorrectSolValueCalculator
  pure c

/-- `create_account_metas`, programs/s-controller/src/cpi/sol_value_calculator.rs:95-101. -/
def CalcCpi.metas (c : CalcCpi) : List Acc := ⟨c.mint, false, false⟩ :: c.remaining

/-- One CPI to a SOL value calculator, programs/s-controller/src/cpi/sol_value_calculator.rs:69-84: the reply is decoded
from return data as two u64 (`get_borsh_return_data`); anything else is `FaultySolValueCalculator`. -/
def CalcCpi.ask {cfg : Cfg} (env : Env cfg) (call : Nat) (w : World) (c : CalcCpi) (q : CalcReq) :
    R (Range × World) := do
  let (r, l) ← env.askCalc call w c.program c.metas q
  require (r.min < U64 ∧ r.max < U64) .faultySolValueCalculator
  pure (r, { w with led := l })

/-- `PricingProgramPriceLpCpi` (one mint) and `PricingProgramPriceSwapCpi` (two mints),
programs/s-controller/src/cpi/pricing_program.rs:27-36, 137-147. -/
structure PriceCpi where
  program : Pubkey
  mints : List Pubkey
  remaining : List Acc
deriving DecidableEq, Repr

/-- `from_lst_mint_and_account_suffix_slice` / `from_src_dst_lst_mints_and_account_suffix_slice` followed by
`verify_correct_pricing_program`, programs/s-controller/src/cpi/pricing_program.rs:44-71, 155-185,
called from `verify_pricing_swap_cpi`, `verify_pricing_lp_cpi`, programs/s-controller/src/verify.rs:107-121, 141-154. -/
def verifyPriceCpi (p : PoolState) (mints : List Pubkey) (suffix : List Acc) : R PriceCpi :=
  match suffix with
  | [] => .error .notEnoughAccountKeys
  | prog :: rest => do
    require (prog.key = p.pricingProgram) .incorrectPricingProgram
    pure ⟨prog.key, mints, rest⟩

/-- `create_account_metas`, programs/s-controller/src/cpi/pricing_program.rs:127-133, 243-252. -/
def PriceCpi.metas (c : PriceCpi) : List Acc := c.mints.map (⟨·, false, false⟩) ++ c.remaining

/-- One CPI to the pricing program, programs/s-controller/src/cpi/pricing_program.rs:73-87, 111-116, 187-196, 220-225: the reply
is decoded from return data as a u64; anything else is `FaultyPricingProgram`. -/
def PriceCpi.ask {cfg : Cfg} (env : Env cfg) (call : Nat) (w : World) (c : PriceCpi) (q : PriceReq) :
    R (Nat × World) := do
  let (r, l) ← env.askPrice call w c.program c.metas q
  require (r < U64) .faultyPricingProgram
  pure (r, { w with led := l })

/-- `slice.get(..n)` and `slice.get(n..)`. -/
def splitAt (as : List Acc) (n : Nat) : R (List Acc × List Acc) := do
  require (n ≤ as.length) .notEnoughAccountKeys
  pure (as.take n, as.drop n)

structure SrcDstCpis where
  src : CalcCpi
  dst : CalcCpi
deriving DecidableEq, Repr

/-- `verify_src_dst_lst_sol_val_calc_cpis`, programs/s-controller/src/verify.rs:174-217. -/
def verifySrcDstCpis (lsts : List LstState) (srcMint dstMint : Pubkey) (suffix : List Acc)
    (srcAccs srcIdx dstIdx : Nat) : R SrcDstCpis := do
  let (a, b) ← splitAt suffix srcAccs
  let src ← verifyCalcCpi lsts srcMint a srcIdx
  let dst ← verifyCalcCpi lsts dstMint b dstIdx
  pure ⟨src, dst⟩

structure LpCpis where
  lst : CalcCpi
  pricing : PriceCpi
deriving DecidableEq, Repr

/-- `verify_lp_cpis`, programs/s-controller/src/verify.rs:241-283. -/
def verifyLpCpis (lsts : List LstState) (p : PoolState) (mint : Pubkey) (suffix : List Acc)
    (calcAccs idx : Nat) : R LpCpis := do
  let (a, b) ← splitAt suffix calcAccs
  let lst ← verifyCalcCpi lsts mint a idx
  let pricing ← verifyPriceCpi p [mint] b
  pure ⟨lst, pricing⟩

structure SwapCpis where
  src : CalcCpi
  dst : CalcCpi
  pricing : PriceCpi
deriving DecidableEq, Repr

/-- `verify_swap_cpis`, programs/s-controller/src/verify.rs:307-356. -/
def verifySwapCpis (lsts : List LstState) (p : PoolState) (srcMint dstMint : Pubkey) (suffix : List Acc)
    (srcAccs dstAccs srcIdx dstIdx : Nat) : R SwapCpis := do
  let (a, b) ← splitAt suffix (srcAccs + dstAccs)
  let c ← verifySrcDstCpis lsts srcMint dstMint a srcAccs srcIdx dstIdx
  let pricing ← verifyPriceCpi p [srcMint, dstMint] b
  pure ⟨c.src, c.dst, pricing⟩

/-- `sync_sol_value_with_retval`, libs/s-controller-lib/src/state.rs:8-24, on the controller's accounts. -/
def Ctl.sync (c : Ctl) (i : Nat) (v : Nat) : R Ctl := do
  let p ← okOr c.pool .invalidPoolStateData
  let s ← okOr c.lsts[i]? .invalidLstIndex
  let t ← syncedTotal p.totalSolValue s.solValue v
  pure { c with pool := some { p with totalSolValue := t }, lsts := c.lsts.set i { s with solValue := v } }

/-- `sync_sol_value_unchecked`, programs/s-controller/src/processor/sync_sol_value.rs:61-83. (An out-of-range index would
panic there; it has been checked by every caller.) -/
def syncUnchecked {cfg : Cfg} (env : Env cfg) (call : Nat) (w : World) (reserves : Pubkey) (c : CalcCpi)
    (i : Nat) : R World := do
  let bal ← tokenBalance w.led reserves
  let (r, w) ← c.ask env call w (.lstToSol bal)
  let ctl ← w.ctl.sync i r.min
  pure { w with ctl := ctl }

/-- `accounts.pool_state.total_sol_value()`, libs/s-controller-lib/src/state.rs:26-65. -/
def totalSolValue (w : World) : R Nat := do
  let p ← getPool w
  pure p.totalSolValue

end S
