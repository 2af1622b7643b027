import Verif.CalcPrograms
import Verif.Client
/-
The command-line tool of the stake pool calculators' manager: cli/generic-pool-calculator/src/subcmd, with the account metas of
generated/sol-value-calculator-programs/generic_pool_calculator_interface/src/instructions.rs. `st` is the calculator's state account and `ch` the rest of the
chain, as fetched; `signer` is the manager's key as given to the command. Sending is not modelled.
-/
set_option autoImplicit false
namespace S

/-- `try_calculator_state(..).unwrap()` and `verify_manager`, subcmd/common.rs:27-36. -/
def fetchCalcManaged (st : Option CalcState) (signer : Pubkey) : R CalcState := do
  let s ← okOr st .panic
  require (s.manager = signer) .panic
  pure s

/-- `UpdateLastUpgradeSlotArgs::run`, subcmd/update_last_upgrade_slot.rs:41-112. `progData` is `find_program_address(&[program], bpf_loader_upgradeable)`.
The command reads the first 45 bytes of that account before sending; it sends even if the slot is already the recorded one (only a message is printed,
lines 88-90). Metas: instructions.rs:524-549. -/
def cmdUpdateSlot (pc : PoolCfg) (ch : OnChain) (st : Option CalcState) (progData : Pubkey → Pubkey) (signer poolProgram : Pubkey) : R TopIx := do
  let _ ← fetchCalcManaged st signer
  let _ ← readProgdataMeta ((ch.data (progData poolProgram)).take 45)
  pure ⟨pc.programId, [sgMeta signer, wrMeta pc.stateId, roMeta poolProgram, roMeta (progData poolProgram)], CalcIx.updateLastUpgradeSlot.encode⟩

/-- `SetManagerArgs::run`, subcmd/set_manager.rs:23-67. Metas: instructions.rs:728-748. -/
def cmdCalcSetManager (pc : PoolCfg) (st : Option CalcState) (signer new : Pubkey) : R TopIx := do
  let s ← fetchCalcManaged st signer
  pure ⟨pc.programId, [sgMeta s.manager, roMeta new, wrMeta pc.stateId], CalcIx.setManager.encode⟩

/-- `InitArgs::run`, subcmd/init.rs:14-52: `none` if the state account exists already. Metas: instructions.rs:919-939. -/
def cmdCalcInit (pc : PoolCfg) (st : Option CalcState) (payer : Pubkey) : Option TopIx :=
  match st with
  | some _ => none
  | none => some ⟨pc.programId, [⟨payer, true, true⟩, wrMeta pc.stateId, roMeta pc.systemProgram], CalcIx.init.encode⟩

/-- The accounts of `lst-to-sol` and `sol-to-lst`: `lst_sol_common_account_metas`, subcmd/common.rs:38-72: for the SPL programs the mint is read from the
pool account (`SplLstSolCommonFreeArgsConst`, spl-calculator-lib/src/account_resolvers.rs:86-150), for Lido and Marinade all are constants
(lido-calculator-lib/src/resolvers, marinade-calculator-lib/src/resolvers). -/
def cmdAskMetas (pc : PoolCfg) (ch : OnChain) (pool : Pubkey) : R (List Acc) := do
  let (mint, pool) ← match pc.kind with
    | .spl => do
      require (ch.owner pool = pc.poolProgram) .panic
      let (m, _) ← readSplPool (ch.data pool)
      pure (m, pool)
    | .lido m p | .marinade m p => pure (m, p)
  pure [roMeta mint, roMeta pc.stateId, roMeta pool, roMeta pc.poolProgram, roMeta pc.poolProgData]

/-- `LstToSolArgs::run` and `SolToLstArgs::run`, subcmd/{lst_to_sol,sol_to_lst}.rs:37-70, with `handle_lst_sol_ix`, subcmd/common.rs:74-104: the range
printed (the return data are decoded as they were encoded: `calc_understands`). -/
def cmdAsk (L : RatioLib) (pc : PoolCfg) (ch : OnChain) (st : Option CalcState) (pool : Pubkey) (q : CalcReq) : R Range := do
  let ms ← cmdAskMetas pc ch pool
  let (_, r) ← calcInstruction L pc ch st pc.programId ms (match q with
    | .lstToSol n => (CalcIx.lstToSol n).encode
    | .solToLst n => (CalcIx.solToLst n).encode)
  okOr r .panic

end S
