import Verif.IxData
/-
The client library: building S controller instructions (`libs/s-controller-lib/src/instructions/*.rs`) and finding
accounts by mint (`libs/s-controller-lib/src/accounts_resolvers/*.rs`, the `*ByMint*` / `*ByPubkey*` resolvers).
Only the functions for the default program id are modelled (the on-chain program knows only that one).
An account the caller passes in (`L: ReadonlyAccountData`, …) is given by its decoded contents; the byte level is in
`Verif.Serde`.
-/
set_option autoImplicit false
namespace S

/-- `AccountMeta::new_readonly(key, false)`. -/
def roMeta (k : Pubkey) : Acc := ⟨k, false, false⟩
/-- `AccountMeta { is_signer: false, is_writable: true }`. -/
def wrMeta (k : Pubkey) : Acc := ⟨k, false, true⟩
/-- `AccountMeta { is_signer: true, is_writable: false }`. -/
def sgMeta (k : Pubkey) : Acc := ⟨k, true, false⟩

/-! ### Appending accounts, instructions/utils.rs -/

/-- `usize::try_into::<u8>()` with the error mapped to `MathError`. -/
def countU8 (n : Nat) : R Nat := do
  require (n ≤ 255) .math
  pure n

/-- `index_to_u32`, instructions/utils.rs:247-252. -/
def indexToU32 (i : Nat) : R Nat := do
  require (i < 2 ^ 32) .indexTooLarge
  pure i

/-- `account_metas_extend_with_sol_value_calculator_accounts`, instructions/utils.rs:117-132, and
`account_metas_extend_with_pricing_program_price_lp_accounts`, instructions/utils.rs:187-203: the program, then the
given accounts without the first (the LST mint). -/
def extendOne (accs metas : List Acc) (prog : Pubkey) : R (List Acc × Nat) := do
  let n ← countU8 metas.length
  pure (accs ++ roMeta prog :: metas.drop 1, n)

/-- `account_metas_extend_with_pricing_program_price_swap_accounts`, instructions/utils.rs:221-241: the program, then
the given accounts without the first two (the LST mints). -/
def extendSwap (accs metas : List Acc) (prog : Pubkey) : R (List Acc × Nat) := do
  require (1 ≤ metas.length) .math
  let n ← countU8 (metas.length - 1)
  pure (accs ++ roMeta prog :: metas.drop 2, n)

/-- A program with the accounts the client wants it to be called with (interface prefix included). -/
structure Callee where
  program : Pubkey
  metas : List Acc
deriving DecidableEq, Repr

/-- `account_metas_extend_with_src_dst_sol_value_calculator_accounts`, instructions/utils.rs:147-170. -/
def extendSrcDst (accs : List Acc) (src dst : Callee) : R (List Acc × Nat × Nat) := do
  let (accs, n) ← extendOne accs src.metas src.program
  let (accs, m) ← extendOne accs dst.metas dst.program
  pure (accs, n, m)

/-- `serialize(&mut &mut data[..])`: writes from the start of an existing buffer. -/
def overwrite (old new : List UInt8) : List UInt8 := new ++ old.drop new.length

/-! ### Keys and their account flags: `From<…Keys> for [AccountMeta; N]`,
generated/s_controller_interface/src/instructions.rs -/

/-- `SyncSolValueKeys`. -/
structure SyncKeys where
  lstMint : Pubkey
  poolState : Pubkey
  lstStateList : Pubkey
  poolReserves : Pubkey
deriving DecidableEq, Repr

def SyncKeys.metas (k : SyncKeys) : List Acc :=
  [roMeta k.lstMint, wrMeta k.poolState, wrMeta k.lstStateList, roMeta k.poolReserves]

/-- `SwapExactInKeys` / `SwapExactOutKeys`. -/
structure SwapKeys where
  signer : Pubkey
  srcLstMint : Pubkey
  dstLstMint : Pubkey
  srcLstAcc : Pubkey
  dstLstAcc : Pubkey
  protocolFeeAccumulator : Pubkey
  srcLstTokenProgram : Pubkey
  dstLstTokenProgram : Pubkey
  poolState : Pubkey
  lstStateList : Pubkey
  srcPoolReserves : Pubkey
  dstPoolReserves : Pubkey
deriving DecidableEq, Repr

def SwapKeys.metas (k : SwapKeys) : List Acc :=
  [sgMeta k.signer, roMeta k.srcLstMint, roMeta k.dstLstMint, wrMeta k.srcLstAcc, wrMeta k.dstLstAcc,
    wrMeta k.protocolFeeAccumulator, roMeta k.srcLstTokenProgram, roMeta k.dstLstTokenProgram, wrMeta k.poolState,
    wrMeta k.lstStateList, wrMeta k.srcPoolReserves, wrMeta k.dstPoolReserves]

/-- `AddLiquidityKeys` / `RemoveLiquidityKeys`. -/
structure LiqKeys where
  signer : Pubkey
  lstMint : Pubkey
  userLst : Pubkey
  userLp : Pubkey
  lpTokenMint : Pubkey
  protocolFeeAccumulator : Pubkey
  lstTokenProgram : Pubkey
  lpTokenProgram : Pubkey
  poolState : Pubkey
  lstStateList : Pubkey
  poolReserves : Pubkey
deriving DecidableEq, Repr

def LiqKeys.metas (k : LiqKeys) : List Acc :=
  [sgMeta k.signer, roMeta k.lstMint, wrMeta k.userLst, wrMeta k.userLp, wrMeta k.lpTokenMint,
    wrMeta k.protocolFeeAccumulator, roMeta k.lstTokenProgram, roMeta k.lpTokenProgram, wrMeta k.poolState,
    wrMeta k.lstStateList, wrMeta k.poolReserves]

/-- `DisableLstInputKeys` / `EnableLstInputKeys`. -/
structure InputKeys where
  admin : Pubkey
  lstMint : Pubkey
  poolState : Pubkey
  lstStateList : Pubkey
deriving DecidableEq, Repr

def InputKeys.metas (k : InputKeys) : List Acc :=
  [sgMeta k.admin, roMeta k.lstMint, wrMeta k.poolState, wrMeta k.lstStateList]

/-- `RemoveLstKeys`. -/
structure RemoveLstKeys where
  admin : Pubkey
  refundRentTo : Pubkey
  lstMint : Pubkey
  poolReserves : Pubkey
  protocolFeeAccumulator : Pubkey
  protocolFeeAccumulatorAuth : Pubkey
  poolState : Pubkey
  lstStateList : Pubkey
  lstTokenProgram : Pubkey
deriving DecidableEq, Repr

def RemoveLstKeys.metas (k : RemoveLstKeys) : List Acc :=
  [sgMeta k.admin, wrMeta k.refundRentTo, roMeta k.lstMint, wrMeta k.poolReserves, wrMeta k.protocolFeeAccumulator,
    wrMeta k.protocolFeeAccumulatorAuth, roMeta k.poolState, wrMeta k.lstStateList, roMeta k.lstTokenProgram]

/-- `SetSolValueCalculatorKeys`. -/
structure SetCalcKeys where
  admin : Pubkey
  lstMint : Pubkey
  poolState : Pubkey
  poolReserves : Pubkey
  lstStateList : Pubkey
deriving DecidableEq, Repr

def SetCalcKeys.metas (k : SetCalcKeys) : List Acc :=
  [sgMeta k.admin, roMeta k.lstMint, wrMeta k.poolState, roMeta k.poolReserves, wrMeta k.lstStateList]

/-- `RemoveDisablePoolAuthorityKeys`. -/
structure RemoveAuthKeys where
  refundRentTo : Pubkey
  signer : Pubkey
  authority : Pubkey
  poolState : Pubkey
  disablePoolAuthorityList : Pubkey
deriving DecidableEq, Repr

def RemoveAuthKeys.metas (k : RemoveAuthKeys) : List Acc :=
  [wrMeta k.refundRentTo, sgMeta k.signer, roMeta k.authority, roMeta k.poolState,
    wrMeta k.disablePoolAuthorityList]

/-- `StartRebalanceKeys`. -/
structure StartKeys where
  rebalanceAuthority : Pubkey
  poolState : Pubkey
  lstStateList : Pubkey
  rebalanceRecord : Pubkey
  srcLstMint : Pubkey
  dstLstMint : Pubkey
  srcPoolReserves : Pubkey
  dstPoolReserves : Pubkey
  withdrawTo : Pubkey
  instructions : Pubkey
  systemProgram : Pubkey
  srcLstTokenProgram : Pubkey
deriving DecidableEq, Repr

def StartKeys.metas (k : StartKeys) : List Acc :=
  [sgMeta k.rebalanceAuthority, wrMeta k.poolState, wrMeta k.lstStateList, wrMeta k.rebalanceRecord,
    roMeta k.srcLstMint, roMeta k.dstLstMint, wrMeta k.srcPoolReserves, wrMeta k.dstPoolReserves,
    wrMeta k.withdrawTo, roMeta k.instructions, roMeta k.systemProgram, roMeta k.srcLstTokenProgram]

/-- `EndRebalanceKeys`. -/
structure EndKeys where
  rebalanceAuthority : Pubkey
  poolState : Pubkey
  lstStateList : Pubkey
  rebalanceRecord : Pubkey
  dstLstMint : Pubkey
  dstPoolReserves : Pubkey
deriving DecidableEq, Repr

def EndKeys.metas (k : EndKeys) : List Acc :=
  [sgMeta k.rebalanceAuthority, wrMeta k.poolState, wrMeta k.lstStateList, wrMeta k.rebalanceRecord,
    roMeta k.dstLstMint, roMeta k.dstPoolReserves]

/-! ### Instruction builders -/

/-- `sync_sol_value_ix_full`, instructions/sync_sol_value.rs:15-50. -/
def syncIx (cfg : Cfg) (k : SyncKeys) (i : Nat) (calculator : Callee) : R TopIx := do
  let i ← indexToU32 i
  let (accs, _) ← extendOne k.metas calculator.metas calculator.program
  pure ⟨cfg.programId, accs, (Ix.syncSolValue i).encode⟩

/-- `swap_exact_in_ix_full`, instructions/swap_exact_in.rs:28-94. -/
def swapExactInIx (cfg : Cfg) (k : SwapKeys) (i j minAmountOut amount : Nat) (src dst pricing : Callee) :
    R TopIx := do
  let i ← indexToU32 i
  let j ← indexToU32 j
  let data := (Ix.swapExactIn ⟨0, 0, i, j, minAmountOut, amount⟩).encode
  let (accs, n, m) ← extendSrcDst k.metas src dst
  let (accs, _) ← extendSwap accs pricing.metas pricing.program
  pure ⟨cfg.programId, accs, overwrite data (Ix.swapExactIn ⟨n, m, i, j, minAmountOut, amount⟩).encode⟩

/-- `swap_exact_out_ix_full`, instructions/swap_exact_out.rs:28-94. -/
def swapExactOutIx (cfg : Cfg) (k : SwapKeys) (i j maxAmountIn amount : Nat) (src dst pricing : Callee) :
    R TopIx := do
  let i ← indexToU32 i
  let j ← indexToU32 j
  let data := (Ix.swapExactOut ⟨0, 0, i, j, maxAmountIn, amount⟩).encode
  let (accs, n, m) ← extendSrcDst k.metas src dst
  let (accs, _) ← extendSwap accs pricing.metas pricing.program
  pure ⟨cfg.programId, accs, overwrite data (Ix.swapExactOut ⟨n, m, i, j, maxAmountIn, amount⟩).encode⟩

/-- `add_liquidity_ix_full`, instructions/add_liquidity.rs:26-84. -/
def addLiquidityIx (cfg : Cfg) (k : LiqKeys) (i lstAmount minLpOut : Nat) (calculator pricing : Callee) :
    R TopIx := do
  let i ← indexToU32 i
  let data := (Ix.addLiquidity ⟨0, i, lstAmount, minLpOut⟩).encode
  let (accs, n) ← extendOne k.metas calculator.metas calculator.program
  let (accs, _) ← extendOne accs pricing.metas pricing.program
  pure ⟨cfg.programId, accs, overwrite data (Ix.addLiquidity ⟨n, i, lstAmount, minLpOut⟩).encode⟩

/-- `remove_liquidity_ix_full`, instructions/remove_liquidity.rs:26-84. -/
def removeLiquidityIx (cfg : Cfg) (k : LiqKeys) (i lpTokenAmount minLstOut : Nat) (calculator pricing : Callee) :
    R TopIx := do
  let i ← indexToU32 i
  let data := (Ix.removeLiquidity ⟨0, i, lpTokenAmount, minLstOut⟩).encode
  let (accs, n) ← extendOne k.metas calculator.metas calculator.program
  let (accs, _) ← extendOne accs pricing.metas pricing.program
  pure ⟨cfg.programId, accs, overwrite data (Ix.removeLiquidity ⟨n, i, lpTokenAmount, minLstOut⟩).encode⟩

/-- `set_sol_value_calculator_ix_full`, instructions/set_sol_value_calculator.rs:17-32. -/
def setCalcIx (cfg : Cfg) (k : SetCalcKeys) (i : Nat) (calculator : Callee) : R TopIx := do
  let i ← indexToU32 i
  let (accs, _) ← extendOne k.metas calculator.metas calculator.program
  pure ⟨cfg.programId, accs, (Ix.setSolValueCalculator i).encode⟩

/-- `StartRebalanceIxLstAmts`, instructions/start_rebalance.rs:15-20. -/
structure StartAmts where
  amount : Nat
  minStartingSrcLst : Nat
  maxStartingDstLst : Nat
deriving DecidableEq, Repr

/-- `start_rebalance_ix_full`, instructions/start_rebalance.rs:29-83. -/
def startRebalanceIx (cfg : Cfg) (k : StartKeys) (i j : Nat) (amts : StartAmts) (src dst : Callee) :
    R TopIx := do
  let i ← indexToU32 i
  let j ← indexToU32 j
  let data := (Ix.startRebalance ⟨0, i, j, amts.amount, amts.minStartingSrcLst, amts.maxStartingDstLst⟩).encode
  let (accs, n, _) ← extendSrcDst k.metas src dst
  pure ⟨cfg.programId, accs, overwrite data
    (Ix.startRebalance ⟨n, i, j, amts.amount, amts.minStartingSrcLst, amts.maxStartingDstLst⟩).encode⟩

/-- `end_rebalance_ix_full`, instructions/end_rebalance.rs:15-43. -/
def endRebalanceIx (cfg : Cfg) (k : EndKeys) (dst : Callee) : R TopIx := do
  let (accs, _) ← extendOne k.metas dst.metas dst.program
  pure ⟨cfg.programId, accs, Ix.endRebalance.encode⟩

/-- `EndRebalanceFromStartRebalanceKeys::resolve`, accounts_resolvers/end_rebalance.rs:79-99. -/
def StartKeys.toEnd (k : StartKeys) : EndKeys :=
  ⟨k.rebalanceAuthority, k.poolState, k.lstStateList, k.rebalanceRecord, k.dstLstMint, k.dstPoolReserves⟩

/-- `StartRebalanceKeys::from([Pubkey; 12])`, generated/s_controller_interface/src/instructions.rs, on the first twelve
accounts. -/
def StartKeys.ofAccs : List Acc → R StartKeys
  | a :: b :: c :: d :: e :: f :: g :: h :: i :: j :: k :: l :: _ =>
    .ok ⟨a.key, b.key, c.key, d.key, e.key, f.key, g.key, h.key, i.key, j.key, k.key, l.key⟩
  | _ => .error .notEnoughAccountKeys

/-- `end_rebalance_ix_from_start_rebalance_ix`, instructions/end_rebalance.rs:45-80. -/
def endFromStartIx (ix : TopIx) : R TopIx := do
  let d ← decodeIx ix.data
  match d with
  | .startRebalance args => do
    require (12 + args.srcLstCalcAccs ≤ ix.accs.length) .notEnoughAccountKeys
    let k ← StartKeys.ofAccs ix.accs
    pure ⟨ix.program, k.toEnd.metas ++ ix.accs.drop (12 + args.srcLstCalcAccs), Ix.endRebalance.encode⟩
  | _ => .error .invalidInstructionData

/-! ### Finding accounts by mint -/

/-- `iter().enumerate().find(..)`. -/
def findFrom {α : Type} (p : α → Bool) (i : Nat) : List α → Option (Nat × α)
  | [] => none
  | s :: rest => if p s then some (i, s) else findFrom p (i + 1) rest

/-- `try_find_lst_mint_on_list`, libs/s-controller-lib/src/lst_state_list.rs:20-29. -/
def findLst (mint : Pubkey) (lsts : List LstState) : R (Nat × LstState) :=
  okOr (findFrom (fun s => s.mint == mint) 0 lsts) .invalidLstIndex

/-- `try_find_element_in_list`, libs/s-controller-lib/src/disable_pool_authority_list.rs:20-22. -/
def findAuth (authority : Pubkey) (auths : List Pubkey) : Option (Nat × Pubkey) :=
  findFrom (fun s => s == authority) 0 auths

/-- A mint account given to a resolver: its address and the token program owning it. -/
structure MintAcc where
  key : Pubkey
  owner : Pubkey
deriving DecidableEq, Repr

/-- `SyncSolValueByMintFreeArgs::resolve`, accounts_resolvers/sync_sol_value.rs:64-113. -/
def resolveSync (cfg : Cfg) (lsts : List LstState) (mint : MintAcc) : R (SyncKeys × Nat × Pubkey) := do
  let (i, s) ← findLst mint.key lsts
  let res ← poolReserves cfg s mint.owner
  pure (⟨mint.key, cfg.poolState, cfg.lstStateList, res⟩, i, s.solValueCalculator)

/-- What the swap and rebalance resolvers find: indexes and calculator programs
(`SrcDstLstIndexes`, `SrcDstLstSolValueCalcProgramIds`). -/
structure Found where
  srcIdx : Nat
  dstIdx : Nat
  srcCalc : Pubkey
  dstCalc : Pubkey
deriving DecidableEq, Repr

/-- `SwapByMintsFreeArgs::resolve_exact_in` / `resolve_exact_out`, accounts_resolvers/swap.rs:150-391. -/
def resolveSwap (cfg : Cfg) (lsts : List LstState) (signer srcAcc dstAcc : Pubkey) (src dst : MintAcc) :
    R (SwapKeys × Found) := do
  let (i, s) ← findLst src.key lsts
  let sr ← poolReserves cfg s src.owner
  let (j, d) ← findLst dst.key lsts
  let dr ← poolReserves cfg d dst.owner
  let fee ← feeAccumulator cfg d dst.owner
  pure (⟨signer, src.key, dst.key, srcAcc, dstAcc, fee, src.owner, dst.owner, cfg.poolState, cfg.lstStateList, sr, dr⟩,
    ⟨i, j, s.solValueCalculator, d.solValueCalculator⟩)

/-- `AddLiquidityByMintFreeArgs::resolve`, accounts_resolvers/add_liquidity.rs:100-177, and
`RemoveLiquidityByMintFreeArgs::resolve`, accounts_resolvers/remove_liquidity.rs:100-177. Returns the calculator and the
pricing program as well. -/
def resolveLiq (cfg : Cfg) (pool : PoolState) (lsts : List LstState) (signer userLst userLp : Pubkey)
    (mint : MintAcc) : R (LiqKeys × Nat × Pubkey × Pubkey) := do
  let (i, s) ← findLst mint.key lsts
  let res ← poolReserves cfg s mint.owner
  let fee ← feeAccumulator cfg s mint.owner
  pure (⟨signer, mint.key, userLst, userLp, pool.lpTokenMint, fee, mint.owner, cfg.splToken, cfg.poolState,
    cfg.lstStateList, res⟩, i, s.solValueCalculator, pool.pricingProgram)

/-- `DisableEnableLstInputByMintFreeArgs::resolve_disable` / `resolve_enable`,
accounts_resolvers/disable_enable_lst_input.rs:86-128, 149-163. -/
def resolveInput (cfg : Cfg) (pool : PoolState) (lsts : List LstState) (mint : Pubkey) :
    R (InputKeys × Nat) := do
  let (i, s) ← findLst mint lsts
  pure (⟨pool.admin, s.mint, cfg.poolState, cfg.lstStateList⟩, i)

/-- `RemoveLstByMintFreeArgs::resolve`, accounts_resolvers/remove_lst.rs:98-165. -/
def resolveRemoveLst (cfg : Cfg) (pool : PoolState) (lsts : List LstState) (refundRentTo : Pubkey)
    (mint : MintAcc) : R (RemoveLstKeys × Nat) := do
  let (i, s) ← findLst mint.key lsts
  let res ← poolReserves cfg s mint.owner
  let fee ← feeAccumulator cfg s mint.owner
  require (i < 2 ^ 32) .math
  pure (⟨pool.admin, refundRentTo, mint.key, res, fee, cfg.protocolFee, cfg.poolState, cfg.lstStateList, mint.owner⟩, i)

/-- `SetSolValueCalculatorByMintFreeArgs::resolve`, accounts_resolvers/set_sol_value_calculator.rs:114-162. -/
def resolveSetCalc (cfg : Cfg) (pool : PoolState) (lsts : List LstState) (mint : MintAcc) :
    R (SetCalcKeys × Nat) := do
  let (i, s) ← findLst mint.key lsts
  let res ← poolReserves cfg s mint.owner
  pure (⟨pool.admin, s.mint, cfg.poolState, res, cfg.lstStateList⟩, i)

/-- `StartRebalanceByMintsFreeArgs::resolve`, accounts_resolvers/start_rebalance.rs:113-212. -/
def resolveStart (cfg : Cfg) (pool : PoolState) (lsts : List LstState) (withdrawTo : Pubkey) (src dst : MintAcc) :
    R (StartKeys × Found) := do
  let (i, s) ← findLst src.key lsts
  let sr ← poolReserves cfg s src.owner
  let (j, d) ← findLst dst.key lsts
  let dr ← poolReserves cfg d dst.owner
  pure (⟨pool.rebalanceAuthority, cfg.poolState, cfg.lstStateList, cfg.rebalanceRecord, s.mint, d.mint, sr, dr, withdrawTo,
    cfg.instructionsSysvar, cfg.systemProgram, src.owner⟩, ⟨i, j, s.solValueCalculator, d.solValueCalculator⟩)

/-- `RemoveDisablePoolAuthorityByPubkeyFreeArgs::resolve`,
accounts_resolvers/remove_disable_pool_authority.rs:69-141. -/
def resolveRemoveAuth (cfg : Cfg) (auths : List Pubkey) (refundRentTo signer authority : Pubkey) :
    R (RemoveAuthKeys × Nat) := do
  let (i, _) ← okOr (findAuth authority auths) .invalidDisablePoolAuthority
  let i ← indexToU32 i
  pure (⟨refundRentTo, signer, authority, cfg.poolState, cfg.disablePoolAuthorityList⟩, i)

/-! ### Building by mint -/

/-- `sync_sol_value_ix_by_mint_full`, instructions/sync_sol_value.rs:52-67. -/
def syncByMint (cfg : Cfg) (lsts : List LstState) (mint : MintAcc) (metas : List Acc) : R TopIx := do
  let (k, i, c) ← resolveSync cfg lsts mint
  syncIx cfg k i ⟨c, metas⟩

/-- Arguments common to the two swaps by mints (`SwapByMintsFreeArgs` and the account lists). -/
structure SwapRequest where
  signer : Pubkey
  srcAcc : Pubkey
  dstAcc : Pubkey
  src : MintAcc
  dst : MintAcc
  srcMetas : List Acc
  dstMetas : List Acc
  pricing : Callee
deriving DecidableEq, Repr

/-- `swap_exact_in_ix_by_mint_full`, instructions/swap_exact_in.rs:102-142. -/
def swapExactInByMint (cfg : Cfg) (lsts : List LstState) (r : SwapRequest) (minAmountOut amount : Nat) :
    R TopIx := do
  let (k, f) ← resolveSwap cfg lsts r.signer r.srcAcc r.dstAcc r.src r.dst
  swapExactInIx cfg k f.srcIdx f.dstIdx minAmountOut amount ⟨f.srcCalc, r.srcMetas⟩ ⟨f.dstCalc, r.dstMetas⟩ r.pricing

/-- `swap_exact_out_ix_by_mint_full`, instructions/swap_exact_out.rs:102-142. -/
def swapExactOutByMint (cfg : Cfg) (lsts : List LstState) (r : SwapRequest) (maxAmountIn amount : Nat) :
    R TopIx := do
  let (k, f) ← resolveSwap cfg lsts r.signer r.srcAcc r.dstAcc r.src r.dst
  swapExactOutIx cfg k f.srcIdx f.dstIdx maxAmountIn amount ⟨f.srcCalc, r.srcMetas⟩ ⟨f.dstCalc, r.dstMetas⟩ r.pricing

/-- Arguments common to adding and removing liquidity by mint. -/
structure LiqRequest where
  signer : Pubkey
  userLst : Pubkey
  userLp : Pubkey
  mint : MintAcc
  calcMetas : List Acc
  priceMetas : List Acc
deriving DecidableEq, Repr

/-- `add_liquidity_ix_by_mint_full`, instructions/add_liquidity.rs:86-103. -/
def addLiquidityByMint (cfg : Cfg) (pool : PoolState) (lsts : List LstState) (r : LiqRequest)
    (lstAmount minLpOut : Nat) : R TopIx := do
  let (k, i, c, p) ← resolveLiq cfg pool lsts r.signer r.userLst r.userLp r.mint
  addLiquidityIx cfg k i lstAmount minLpOut ⟨c, r.calcMetas⟩ ⟨p, r.priceMetas⟩

/-- `remove_liquidity_ix_by_mint_full`, instructions/remove_liquidity.rs:86-103. -/
def removeLiquidityByMint (cfg : Cfg) (pool : PoolState) (lsts : List LstState) (r : LiqRequest)
    (lpTokenAmount minLstOut : Nat) : R TopIx := do
  let (k, i, c, p) ← resolveLiq cfg pool lsts r.signer r.userLst r.userLp r.mint
  removeLiquidityIx cfg k i lpTokenAmount minLstOut ⟨c, r.calcMetas⟩ ⟨p, r.priceMetas⟩

/-- `disable_lst_input_ix_by_mint_full` (disable = true) and `enable_lst_input_ix_by_mint_full` (disable = false),
instructions/disable_enable_lst_input.rs:9-25. -/
def lstInputByMint (cfg : Cfg) (pool : PoolState) (lsts : List LstState) (disable : Bool) (mint : Pubkey) :
    R TopIx := do
  let (k, i) ← resolveInput cfg pool lsts mint
  let i ← indexToU32 i
  pure ⟨cfg.programId, k.metas, (if disable then Ix.disableLstInput i else Ix.enableLstInput i).encode⟩

/-- `RemoveLstByMintFreeArgs::resolve` followed by `remove_lst_ix` (generated/s_controller_interface/src/instructions.rs). -/
def removeLstByMint (cfg : Cfg) (pool : PoolState) (lsts : List LstState) (refundRentTo : Pubkey) (mint : MintAcc) :
    R TopIx := do
  let (k, i) ← resolveRemoveLst cfg pool lsts refundRentTo mint
  pure ⟨cfg.programId, k.metas, (Ix.removeLst i).encode⟩

/-- `set_sol_value_calculator_ix_by_mint_full`, instructions/set_sol_value_calculator.rs:34-52. -/
def setCalcByMint (cfg : Cfg) (pool : PoolState) (lsts : List LstState) (mint : MintAcc) (calculator : Callee) :
    R TopIx := do
  let (k, i) ← resolveSetCalc cfg pool lsts mint
  setCalcIx cfg k i calculator

/-- `start_rebalance_ix_by_mints_full`, instructions/start_rebalance.rs:85-114. -/
def startRebalanceByMints (cfg : Cfg) (pool : PoolState) (lsts : List LstState) (withdrawTo : Pubkey)
    (src dst : MintAcc) (amts : StartAmts) (srcMetas dstMetas : List Acc) : R TopIx := do
  let (k, f) ← resolveStart cfg pool lsts withdrawTo src dst
  startRebalanceIx cfg k f.srcIdx f.dstIdx amts ⟨f.srcCalc, srcMetas⟩ ⟨f.dstCalc, dstMetas⟩

/-- `RemoveDisablePoolAuthorityByPubkeyFreeArgs::resolve` followed by `remove_disable_pool_authority_ix`
(generated/s_controller_interface/src/instructions.rs). -/
def removeAuthByPubkey (cfg : Cfg) (auths : List Pubkey) (refundRentTo signer authority : Pubkey) : R TopIx := do
  let (k, i) ← resolveRemoveAuth cfg auths refundRentTo signer authority
  pure ⟨cfg.programId, k.metas, (Ix.removeDisablePoolAuthority i).encode⟩

end S
