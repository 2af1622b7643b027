import Verif.Client
/-!
The instruction builders of libs/s-controller-lib for another deployment of the controller (`resolve_for_prog`, `*_for_prog`, used by the commands of
cli/s-controller with `--program`). `D` is the deployment the library was compiled for (the constants of libs/s-controller-lib/src/program.rs), `P` the
deployment asked for.

Most resolvers derive everything from the program id given (swap, liquidity, AddLst, input flags, the authority list, the pool settings): for those the
builder for `P` is the builder of `Verif/Client.lean` or `Verif/AdminCli.lean` at `P`. The four below take the pool's and the list's address from `P`
but compute the reserves (and the fee accumulator) with `create_pool_reserves_address` and `create_protocol_fee_accumulator_address`, which use the
constants of `D` (libs/s-controller-lib/src/pda.rs:11-16, 39-48).
-/
set_option autoImplicit false
namespace S

/-- `SyncSolValueByMintFreeArgs::resolve_for_prog`, accounts_resolvers/sync_sol_value.rs:73-113. -/
def resolveSyncFor (D P : Cfg) (lsts : List LstState) (mint : MintAcc) : R (SyncKeys × Nat × Pubkey) := do
  let (i, s) ← findLst mint.key lsts
  let res ← poolReserves D s mint.owner
  pure (⟨mint.key, P.poolState, P.lstStateList, res⟩, i, s.solValueCalculator)

/-- `RemoveLstByMintFreeArgs::resolve_for_prog`, accounts_resolvers/remove_lst.rs:106-165. -/
def resolveRemoveLstFor (D P : Cfg) (pool : PoolState) (lsts : List LstState) (refundRentTo : Pubkey)
    (mint : MintAcc) : R (RemoveLstKeys × Nat) := do
  let (i, s) ← findLst mint.key lsts
  let res ← poolReserves D s mint.owner
  let fee ← feeAccumulator D s mint.owner
  require (i < 2 ^ 32) .math
  pure (⟨pool.admin, refundRentTo, mint.key, res, fee, P.protocolFee, P.poolState, P.lstStateList, mint.owner⟩, i)

/-- `SetSolValueCalculatorByMintFreeArgs::resolve_for_prog`, accounts_resolvers/set_sol_value_calculator.rs:120-162. -/
def resolveSetCalcFor (D P : Cfg) (pool : PoolState) (lsts : List LstState) (mint : MintAcc) :
    R (SetCalcKeys × Nat) := do
  let (i, s) ← findLst mint.key lsts
  let res ← poolReserves D s mint.owner
  pure (⟨pool.admin, s.mint, P.poolState, res, P.lstStateList⟩, i)

/-- `StartRebalanceByMintsFreeArgs::resolve_for_prog`, accounts_resolvers/start_rebalance.rs:137-212. -/
def resolveStartFor (D P : Cfg) (pool : PoolState) (lsts : List LstState) (withdrawTo : Pubkey) (src dst : MintAcc) :
    R (StartKeys × Found) := do
  let (i, s) ← findLst src.key lsts
  let sr ← poolReserves D s src.owner
  let (j, d) ← findLst dst.key lsts
  let dr ← poolReserves D d dst.owner
  pure (⟨pool.rebalanceAuthority, P.poolState, P.lstStateList, P.rebalanceRecord, s.mint, d.mint, sr, dr, withdrawTo,
    P.instructionsSysvar, P.systemProgram, src.owner⟩, ⟨i, j, s.solValueCalculator, d.solValueCalculator⟩)

/-- `resolve_for_prog` and `sync_sol_value_ix_full_for_prog`, instructions/sync_sol_value.rs:30-49, as in
cli/s-controller/src/subcmd/sync.rs:93-112 and sync_all.rs:79-104. -/
def syncFor (D P : Cfg) (lsts : List LstState) (mint : MintAcc) (metas : List Acc) : R TopIx := do
  let (k, i, c) ← resolveSyncFor D P lsts mint
  syncIx P k i ⟨c, metas⟩

/-- `resolve_for_prog` and `remove_lst_ix_with_program_id`, cli/s-controller/src/subcmd/remove_lst.rs:83-93. -/
def removeLstFor (D P : Cfg) (pool : PoolState) (lsts : List LstState) (refundRentTo : Pubkey) (mint : MintAcc) :
    R TopIx := do
  let (k, i) ← resolveRemoveLstFor D P pool lsts refundRentTo mint
  pure ⟨P.programId, k.metas, (Ix.removeLst i).encode⟩

/-- `set_sol_value_calculator_ix_by_mint_full_with_program_id`, instructions/set_sol_value_calculator.rs:52-77. -/
def setCalcFor (D P : Cfg) (pool : PoolState) (lsts : List LstState) (mint : MintAcc) (calculator : Callee) :
    R TopIx := do
  let (k, i) ← resolveSetCalcFor D P pool lsts mint
  setCalcIx P k i calculator

/-- `start_rebalance_ix_by_mints_full_for_prog`, instructions/start_rebalance.rs:112-141. -/
def startRebalanceFor (D P : Cfg) (pool : PoolState) (lsts : List LstState) (withdrawTo : Pubkey)
    (src dst : MintAcc) (amts : StartAmts) (srcMetas dstMetas : List Acc) : R TopIx := do
  let (k, f) ← resolveStartFor D P pool lsts withdrawTo src dst
  startRebalanceIx P k f.srcIdx f.dstIdx amts ⟨f.srcCalc, srcMetas⟩ ⟨f.dstCalc, dstMetas⟩

end S
