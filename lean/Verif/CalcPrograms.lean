import Verif.Calculators
import Verif.Layout
/-
Model of the SOL value calculator programs: `programs/sol-value-calculator-programs/{spl,sanctum-spl,sanctum-spl-multi,lido,marinade,wsol}-calculator/src`
with `libs/sol-value-calculator-programs/{generic-pool-calculator-onchain,generic-pool-calculator-lib,sol-value-calculator-onchain}/src` and the
account resolvers of the per-pool libraries.
-/
set_option autoImplicit false
namespace S

/-- Which stake pool program the calculator works for. The three SPL calculators (SPL, Sanctum SPL, Sanctum SPL Multi) differ only in their
addresses. Lido and Marinade have a single pool at a fixed address with a fixed mint
(`LIDO_LST_SOL_COMMON_INTERMEDIATE_KEYS`, lido-calculator-lib/src/lib.rs:39-43, and its Marinade equivalent). -/
inductive PoolKind
  | spl
  | lido (lstMint poolState : Pubkey)
  | marinade (lstMint poolState : Pubkey)
deriving DecidableEq, Repr

/-- `trait GenericPoolSolValCalc`, generic-pool-calculator-lib/src/lib.rs:26-41, with the initial manager and the system program. -/
structure PoolCfg where
  kind : PoolKind
  /-- `ID` -/
  programId : Pubkey
  /-- `CALCULATOR_STATE_PDA` -/
  stateId : Pubkey
  /-- `POOL_PROGRAM_ID` -/
  poolProgram : Pubkey
  /-- `POOL_PROGRAM_PROGDATA_ID` -/
  poolProgData : Pubkey
  initialManager : Pubkey
  systemProgram : Pubkey

/-- `CalculatorState`, generated/sol-value-calculator-programs/generic_pool_calculator_interface/src/typedefs.rs (40 bytes). The calculator program's
only account; `none` before it is created. -/
structure CalcState where
  manager : Pubkey
  lastUpgradeSlot : Nat
deriving DecidableEq, Repr

/-- The rest of the chain as an execution sees it: the owner and the bytes of every account, and the epoch of the clock. -/
structure OnChain where
  owner : Pubkey → Pubkey
  data : Pubkey → List UInt8
  epoch : Nat

/-- `read_programdata_addr`, generic-pool-calculator-lib/src/utils.rs:8-22. `UpgradeableLoaderState` in bincode: a four-byte tag, 2 for
`Program`, then the address; trailing bytes are ignored. -/
def readProgramdataAddr (b : List UInt8) : R Pubkey :=
  match readLE 4 b with
  | .ok (2, r) => match readLE 32 r with
    | .ok (k, _) => .ok k
    | .error _ => .error .invalidStakePoolProgramData
  | _ => .error .invalidStakePoolProgramData

/-- `read_stake_pool_progdata_meta`, generic-pool-calculator-lib/src/utils.rs:24-44. The first 45 bytes, of which tag 3 (`ProgramData`), the slot and the
optional upgrade authority. -/
def readProgdataMeta (b : List UInt8) : R (Nat × Option Pubkey) :=
  if b.length < 45 then .error .invalidStakePoolProgramData
  else match readLE 4 (b.take 45) with
    | .ok (3, r) => match readLE 8 r with
      | .ok (slot, r) => match readOpt 32 r with
        | .ok (auth, _) => .ok (slot, auth)
        | .error _ => .error .invalidStakePoolProgramData
      | .error _ => .error .invalidStakePoolProgramData
    | _ => .error .invalidStakePoolProgramData

/-- `verify_no_stake_pool_prog_upgrade`, generic-pool-calculator-lib/src/utils.rs:62-81. -/
def verifyNoUpgrade (ch : OnChain) (st : Option CalcState) (progData : Pubkey) : R Unit := do
  let (slot, _) ← readProgdataMeta (ch.data progData)
  let s ← okOr st .invalidCalculatorStateData
  require (s.lastUpgradeSlot = slot) .unexpectedProgramUpgrade

/-- Accounts of LstToSol and SolToLst: generated/sol-value-calculator-programs/generic_pool_calculator_interface/src/instructions.rs:167-175, 376-384. -/
structure LstSolAccs where
  lstMint : Acc
  state : Acc
  poolState : Acc
  poolProgram : Acc
  poolProgramData : Acc

def loadLstSol : List Acc → R LstSolAccs
  | a :: b :: c :: d :: e :: _ => .ok ⟨a, b, c, d, e⟩
  | _ => .error .notEnoughAccountKeys

/-- `lst_to_sol_verify_account_keys`, generic_pool_calculator_interface/src/instructions.rs:265-281. -/
def checkLstSolKeys (a : LstSolAccs) (lstMint state poolState poolProgram poolProgramData : Pubkey) : R Unit :=
  checkKeys [(a.lstMint.key, lstMint), (a.state.key, state), (a.poolState.key, poolState), (a.poolProgram.key, poolProgram),
    (a.poolProgramData.key, poolProgramData)]

/-- `deserialize_stake_pool_checked`, spl-calculator-lib/src/account_resolvers.rs:48-61, with the fields of `SplStakePoolCalc` and the mint. -/
def readSplPool (b : List UInt8) : R (Pubkey × SplCalc) :=
  match decodeFields splLayout.flds b with
  | .error _ => .error .invalidStakePoolProgramData
  | .ok (vs, _) => do
    require (splLayout.get vs .accountType = 1) .invalidStakePoolProgramData
    pure (splLayout.get vs .poolMint,
      ⟨splLayout.get vs .lastUpdateEpoch, splLayout.get vs .totalLamports, splLayout.get vs .poolTokenSupply,
       splLayout.get vs .withdrawalFeeNumerator, splLayout.get vs .withdrawalFeeDenominator⟩)

/-- `Lido::deserialize`, the account type check and `LidoCalc::from`, lido-calculator/src/processor/lst_sol_common.rs:30-34. -/
def readLido (b : List UInt8) : R LidoCalc := do
  let (vs, _) ← decodeFields lidoLayout.flds b
  require (lidoLayout.get vs .accountType = 1) .invalidAccountData
  pure ⟨lidoLayout.get vs .computedInEpoch, lidoLayout.get vs .stSolSupply, lidoLayout.get vs .solBalance⟩

/-- `MARINADE_STATE_DISCM`, marinade-calculator/src/processor/lst_sol_common.rs:13, as a little-endian number. -/
def MARINADE_STATE_DISCM : Nat := ofLE [216, 146, 107, 94, 104, 75, 182, 177]

/-- `MarinadeState::deserialize`, the discriminant check and `MarinadeStateCalc::from`, marinade-calculator/src/processor/lst_sol_common.rs:34-38. -/
def readMarinade (b : List UInt8) : R MarinadeCalc := do
  let (vs, _) ← decodeFields marinadeLayout.flds b
  require (marinadeLayout.get vs .discriminant = MARINADE_STATE_DISCM) .invalidAccountData
  pure
    { paused := marinadeLayout.get vs .paused = 1
      delayedUnstakeCoolingDown := marinadeLayout.get vs .delayedUnstakeCoolingDown
      emergencyCoolingDown := marinadeLayout.get vs .emergencyCoolingDown
      totalActiveBalance := marinadeLayout.get vs .totalActiveBalance
      availableReserveBalance := marinadeLayout.get vs .availableReserveBalance
      circulatingTicketBalance := marinadeLayout.get vs .circulatingTicketBalance
      msolSupply := marinadeLayout.get vs .msolSupply
      withdrawStakeAccountEnabled := marinadeLayout.get vs .withdrawStakeAccountEnabled = 1
      withdrawStakeAccountFeeCents := marinadeLayout.get vs .withdrawStakeAccountFee }

/-- `verify_lst_sol_common` of the SPL calculators: spl-calculator/src/processor/lst_sol_common.rs:13-37 (and the identical files of sanctum-spl-calculator and
sanctum-spl-multi-calculator), with `resolve_for_stake_pool_program`, spl-calculator-lib/src/account_resolvers.rs:90-110, and
`LstSolCommonIntermediateArgs::resolve`, generic-pool-calculator-lib/src/account_resolvers/lst_sol_common.rs:15-30. -/
def verifySpl (pc : PoolCfg) (ch : OnChain) (st : Option CalcState) (accs : List Acc) : R AnyCalc := do
  let a ← loadLstSol accs
  require (a.poolProgram.key = pc.poolProgram) .wrongPoolProgram
  require (ch.owner a.poolState.key = pc.poolProgram) .invalidStakePoolProgramData
  let (mint, c) ← readSplPool (ch.data a.poolState.key)
  let progData ← readProgramdataAddr (ch.data a.poolProgram.key)
  checkLstSolKeys a mint pc.stateId a.poolState.key pc.poolProgram progData
  verifyNoUpgrade ch st a.poolProgramData.key
  c.verifyUpdated ch.epoch
  pure (.spl c)

/-- `verify_lst_sol_common`, lido-calculator/src/processor/lst_sol_common.rs:14-39, with `LstSolCommonIntermediateKeys::resolve`,
generic-pool-calculator-lib/src/account_resolvers/lst_sol_common.rs:42-52. -/
def verifyLido (pc : PoolCfg) (lstMint poolState : Pubkey) (ch : OnChain) (st : Option CalcState) (accs : List Acc) : R AnyCalc := do
  let a ← loadLstSol accs
  checkLstSolKeys a lstMint pc.stateId poolState pc.poolProgram pc.poolProgData
  verifyNoUpgrade ch st a.poolProgramData.key
  let c ← readLido (ch.data a.poolState.key)
  c.verifyUpdated ch.epoch
  pure (.lido c)

/-- `verify_lst_sol_common`, marinade-calculator/src/processor/lst_sol_common.rs:15-43. -/
def verifyMarinade (pc : PoolCfg) (lstMint poolState : Pubkey) (ch : OnChain) (st : Option CalcState) (accs : List Acc) : R AnyCalc := do
  let a ← loadLstSol accs
  checkLstSolKeys a lstMint pc.stateId poolState pc.poolProgram pc.poolProgData
  verifyNoUpgrade ch st a.poolProgramData.key
  let c ← readMarinade (ch.data a.poolState.key)
  c.verifyCanWithdrawStake
  pure (.marinade c)

def verifyLstSol (pc : PoolCfg) (ch : OnChain) (st : Option CalcState) (accs : List Acc) : R AnyCalc :=
  match pc.kind with
  | .spl => verifySpl pc ch st accs
  | .lido m p => verifyLido pc m p ch st accs
  | .marinade m p => verifyMarinade pc m p ch st accs

/-- `process_update_last_upgrade_slot`: generic-pool-calculator-onchain/src/processor/update_last_upgrade_slot.rs:15-49 and
`UpdateLastUpgradeSlotFreeArgs::resolve`, generic-pool-calculator-lib/src/account_resolvers/update_last_upgrade_slot.rs:23-44. Accounts: manager, state,
pool_program, pool_program_data. -/
def calcUpdateSlot (pc : PoolCfg) (ch : OnChain) (st : Option CalcState) (accs : List Acc) : R (Option CalcState) :=
  match accs with
  | manager :: state :: prog :: progData :: _ => do
    require (state.key = pc.stateId) .wrongCalculatorStatePda
    require (prog.key = pc.poolProgram) .wrongPoolProgram
    let s ← okOr st .invalidCalculatorStateData
    let pd ← readProgramdataAddr (ch.data prog.key)
    checkKeys [(manager.key, s.manager), (state.key, pc.stateId), (prog.key, pc.poolProgram), (progData.key, pd)]
    checkWritable [state]
    checkSigner [manager]
    let (slot, _) ← readProgdataMeta (ch.data progData.key)
    pure (some { s with lastUpgradeSlot := slot })
  | _ => .error .notEnoughAccountKeys

/-- `process_set_manager`: generic-pool-calculator-onchain/src/processor/set_manager.rs:13-42 and `SetManagerFreeArgs::resolve`,
generic-pool-calculator-lib/src/account_resolvers/set_manager.rs:12-27. Accounts: manager, new_manager, state. -/
def calcSetManager (pc : PoolCfg) (st : Option CalcState) (accs : List Acc) : R (Option CalcState) :=
  match accs with
  | manager :: new :: state :: _ => do
    require (state.key = pc.stateId) .wrongCalculatorStatePda
    let s ← okOr st .invalidCalculatorStateData
    checkKeys [(manager.key, s.manager), (state.key, pc.stateId)]
    checkWritable [state]
    checkSigner [manager]
    pure (some { s with manager := new.key })
  | _ => .error .notEnoughAccountKeys

/-- `process_init`: generic-pool-calculator-onchain/src/processor/init.rs:17-60. Accounts: payer, state, system_program. Creating an account that
already exists fails. -/
def calcInit (pc : PoolCfg) (st : Option CalcState) (accs : List Acc) : R (Option CalcState) :=
  match accs with
  | payer :: state :: sys :: _ => do
    checkKeys [(state.key, pc.stateId), (sys.key, pc.systemProgram)]
    checkWritable [payer, state]
    checkSigner [payer]
    require (st = none) .system
    pure (some ⟨pc.initialManager, 0⟩)
  | _ => .error .notEnoughAccountKeys

/-- `GenericPoolCalculatorProgramIx`, generic_pool_calculator_interface/src/instructions.rs:10-17. -/
inductive CalcIx
  | lstToSol (amount : Nat)
  | solToLst (amount : Nat)
  | updateLastUpgradeSlot
  | setManager
  | init
deriving DecidableEq, Repr

/-- `GenericPoolCalculatorProgramIx::serialize`, generic_pool_calculator_interface/src/instructions.rs:37-51. -/
def CalcIx.encode : CalcIx → List UInt8
  | .lstToSol n => 0 :: toLE 8 n
  | .solToLst n => 1 :: toLE 8 n
  | .updateLastUpgradeSlot => [253]
  | .setManager => [254]
  | .init => [255]

/-- `GenericPoolCalculatorProgramIx::deserialize`, generic_pool_calculator_interface/src/instructions.rs:18-36. -/
def decodeCalcIx (buf : List UInt8) : R CalcIx :=
  match buf with
  | [] => .error .decode
  | d :: r =>
    match d.toNat with
    | 0 => do let (n, _) ← readLE 8 r; pure (.lstToSol n)
    | 1 => do let (n, _) ← readLE 8 r; pure (.solToLst n)
    | 253 => pure .updateLastUpgradeSlot
    | 254 => pure .setManager
    | 255 => pure .init
    | _ => .error .decode

/-- `set_u64_value_range_return_data`, sol-value-calculator-onchain/src/lib.rs:26-31: min then max, little-endian. -/
def Range.encode (r : Range) : List UInt8 := toLE 8 r.min ++ toLE 8 r.max

/-- `get_borsh_return_data::<U64ValueRange>` on the data the called program set, programs/s-controller/src/cpi/sol_value_calculator.rs:82-84. -/
def decodeRange (b : List UInt8) : R Range := do
  let (x, y) ← readTwo8 b
  pure ⟨x, y⟩
where readTwo8 (r : List UInt8) : R (Nat × Nat) := do
  let (a, r) ← readLE 8 r
  let (b, _) ← readLE 8 r
  pure (a, b)

/-- `process_instruction` after decoding, e.g. spl-calculator/src/entrypoint.rs:27-37, with `process_lst_to_sol_unchecked` and
`process_sol_to_lst_unchecked`, sol-value-calculator-onchain/src/lib.rs:9-24: the calculator state afterwards and the value range set as return data. -/
def calcProcess (L : RatioLib) (pc : PoolCfg) (ch : OnChain) (st : Option CalcState) (accs : List Acc) :
    CalcIx → R (Option CalcState × Option Range)
  | .lstToSol n => do
    let c ← verifyLstSol pc ch st accs
    let r ← (c.calculator L).lstToSol n
    pure (st, some r)
  | .solToLst n => do
    let c ← verifyLstSol pc ch st accs
    let r ← (c.calculator L).solToLst n
    pure (st, some r)
  | .updateLastUpgradeSlot => do let s ← calcUpdateSlot pc ch st accs; pure (s, none)
  | .setManager => do let s ← calcSetManager pc st accs; pure (s, none)
  | .init => do let s ← calcInit pc st accs; pure (s, none)

/-- `process_instruction`, e.g. spl-calculator/src/entrypoint.rs:15-37. -/
def calcInstruction (L : RatioLib) (pc : PoolCfg) (ch : OnChain) (st : Option CalcState) (programId : Pubkey) (accs : List Acc) (data : List UInt8) :
    R (Option CalcState × Option Range) := do
  require (programId = pc.programId) .incorrectProgramId
  let ix ← decodeCalcIx data
  calcProcess L pc ch st accs ix

/-- `process_instruction` of the wrapped SOL calculator, programs/sol-value-calculator-programs/wsol-calculator/src/lib.rs:17-44: its only account is the LST
mint, which must be wrapped SOL; discriminators 0 and 1 as above (generated/sol-value-calculator-programs/wsol_calculator_interface/src/instructions.rs). -/
def wsolInstruction (programId wsolMint callee : Pubkey) (accs : List Acc) (data : List UInt8) : R Range := do
  require (callee = programId) .incorrectProgramId
  match accs with
  | mint :: _ => do
    checkKeys [(mint.key, wsolMint)]
    match ← decodeCalcIx data with
    | .lstToSol n => wsolCalculator.lstToSol n
    | .solToLst n => wsolCalculator.solToLst n
    | _ => .error .decode
  | [] => .error .notEnoughAccountKeys

/-- One executed instruction, with the chain around it at that moment. -/
structure CalcCall where
  chain : OnChain
  accs : List Acc
  data : List UInt8

/-- The calculator state after an instruction; a failed one changes nothing. -/
def CalcCall.apply (L : RatioLib) (pc : PoolCfg) (st : Option CalcState) (c : CalcCall) : Option CalcState :=
  match calcInstruction L pc c.chain st pc.programId c.accs c.data with
  | .ok (s, _) => s
  | .error _ => st

/-- The calculator state after a history of instructions, starting from deployment. -/
def calcHistory (L : RatioLib) (pc : PoolCfg) (cs : List CalcCall) : Option CalcState := cs.foldl (CalcCall.apply L pc) none

end S
