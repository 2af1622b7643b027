import Verif.Controller.Verify
/-
Permissionless instructions of the S controller: SyncSolValue, SwapExactIn, SwapExactOut, AddLiquidity, RemoveLiquidity.
-/
set_option autoImplicit false
namespace S

/-! ### SyncSolValue -/

/-- `SyncSolValueAccounts`, generated/s_controller_interface/src/instructions.rs (account order and count). -/
structure SyncAccs where
  lstMint : Acc
  poolState : Acc
  lstStateList : Acc
  poolReserves : Acc
deriving DecidableEq, Repr

/-- `load_accounts` + the suffix slice, processor/sync_sol_value.rs:95-101. -/
def SyncAccs.load : List Acc → R (SyncAccs × List Acc)
  | a :: b :: c :: d :: rest => .ok (⟨a, b, c, d⟩, rest)
  | _ => .error .notEnoughAccountKeys

/-- `verify_sync_sol_value`, processor/sync_sol_value.rs:85-131 with
`SyncSolValueFreeArgs::resolve`, accounts_resolvers/sync_sol_value.rs:26-43. -/
def verifySync (cfg : Cfg) (w : World) (a : SyncAccs) (suffix : List Acc) (i : Nat) : R CalcCpi := do
  require (a.lstStateList.key = cfg.lstStateList) .incorrectLstStateList
  let s ← matchLst a.lstMint.key w.ctl.lsts i
  let tp ← mintProgram w.led a.lstMint.key
  let res ← poolReserves cfg s tp
  checkKeys [(a.lstMint.key, s.mint), (a.poolState.key, cfg.poolState),
    (a.lstStateList.key, cfg.lstStateList), (a.poolReserves.key, res)]
  checkWritable [a.poolState, a.lstStateList]
  let p ← getPool w
  verifyActive p
  verifyCalcCpi w.ctl.lsts a.lstMint.key suffix i

/-- `process_sync_sol_value`, processor/sync_sol_value.rs:28-36. -/
def processSync (cfg : Cfg) (env : Env cfg) (w : World) (accs : List Acc) (i : Nat) : R World := do
  let (a, suffix) ← SyncAccs.load accs
  let c ← verifySync cfg w a suffix i
  syncUnchecked env 0 w a.poolReserves.key c i

/-! ### SwapExactIn, SwapExactOut -/

/-- `SwapExactInAccounts` / `SwapExactOutAccounts`, generated/s_controller_interface/src/instructions.rs. -/
structure SwapAccs where
  signer : Acc
  srcLstMint : Acc
  dstLstMint : Acc
  srcLstAcc : Acc
  dstLstAcc : Acc
  protocolFeeAccumulator : Acc
  srcLstTokenProgram : Acc
  dstLstTokenProgram : Acc
  poolState : Acc
  lstStateList : Acc
  srcPoolReserves : Acc
  dstPoolReserves : Acc
deriving DecidableEq, Repr

def SwapAccs.load : List Acc → R (SwapAccs × List Acc)
  | a :: b :: c :: d :: e :: f :: g :: h :: i :: j :: k :: l :: rest =>
    .ok (⟨a, b, c, d, e, f, g, h, i, j, k, l⟩, rest)
  | _ => .error .notEnoughAccountKeys

/-- `SwapExactInIxArgs`, generated/s_controller_interface/src/instructions.rs. -/
structure SwapExactInArgs where
  srcLstValueCalcAccs : Nat
  dstLstValueCalcAccs : Nat
  srcLstIndex : Nat
  dstLstIndex : Nat
  minAmountOut : Nat
  amount : Nat
deriving DecidableEq, Repr

/-- `SwapExactOutIxArgs`, generated/s_controller_interface/src/instructions.rs. -/
structure SwapExactOutArgs where
  srcLstValueCalcAccs : Nat
  dstLstValueCalcAccs : Nat
  srcLstIndex : Nat
  dstLstIndex : Nat
  maxAmountIn : Nat
  amount : Nat
deriving DecidableEq, Repr

/-- The part common to `verify_swap_exact_in` (processor/swap_exact_in.rs:160-205) and `verify_swap_exact_out`
(processor/swap_exact_out.rs:160-208), with `SwapFreeArgs::compute_keys`/`resolve_exact_{in,out}`
(accounts_resolvers/swap.rs:41-132). -/
def verifySwap (cfg : Cfg) (w : World) (a : SwapAccs) (suffix : List Acc)
    (srcAccs dstAccs srcIdx dstIdx : Nat) : R SwapCpis := do
  require (a.lstStateList.key = cfg.lstStateList) .incorrectLstStateList
  let src ← matchLst a.srcLstMint.key w.ctl.lsts srcIdx
  let srcTp ← mintProgram w.led a.srcLstMint.key
  let srcRes ← poolReserves cfg src srcTp
  let dst ← matchLst a.dstLstMint.key w.ctl.lsts dstIdx
  let dstTp ← mintProgram w.led a.dstLstMint.key
  let dstRes ← poolReserves cfg dst dstTp
  let acc ← feeAccumulator cfg dst dstTp
  checkKeys [(a.protocolFeeAccumulator.key, acc), (a.srcLstTokenProgram.key, srcTp),
    (a.dstLstTokenProgram.key, dstTp), (a.poolState.key, cfg.poolState),
    (a.lstStateList.key, cfg.lstStateList), (a.srcPoolReserves.key, srcRes), (a.dstPoolReserves.key, dstRes)]
  checkWritable [a.srcLstAcc, a.dstLstAcc, a.protocolFeeAccumulator, a.poolState, a.lstStateList,
    a.srcPoolReserves, a.dstPoolReserves]
  checkSigner [a.signer]
  require (a.srcLstMint.key ≠ a.dstLstMint.key) .swapSameLst
  let p ← getPool w
  verifyActive p
  verifyInputEnabled src
  verifySwapCpis w.ctl.lsts p a.srcLstMint.key a.dstLstMint.key suffix srcAccs dstAccs srcIdx dstIdx

/-- The token movements and the final check, processor/swap_exact_in.rs:84-134 and swap_exact_out.rs:85-133. -/
def finishSwap {cfg : Cfg} (env : Env cfg) (w : World) (a : SwapAccs) (c : SwapCpis)
    (srcIdx dstIdx startTotal srcIn dstOut fee : Nat) : R World := do
  let totalOut ← addU64 dstOut fee
  let bal ← tokenBalance w.led a.dstPoolReserves.key
  require (totalOut ≤ bal) .notEnoughLiquidity
  let l ← transfer w.led ⟨a.srcLstAcc.key, a.srcPoolReserves.key, a.srcLstTokenProgram.key, a.signer.key,
    a.srcLstMint.key⟩ srcIn
  let l ← transfer l ⟨a.dstPoolReserves.key, a.protocolFeeAccumulator.key, a.dstLstTokenProgram.key,
    a.poolState.key, a.dstLstMint.key⟩ fee
  let l ← transfer l ⟨a.dstPoolReserves.key, a.dstLstAcc.key, a.dstLstTokenProgram.key,
    a.poolState.key, a.dstLstMint.key⟩ dstOut
  let w ← syncUnchecked env 5 { w with led := l } a.srcPoolReserves.key c.src srcIdx
  let w ← syncUnchecked env 6 w a.dstPoolReserves.key c.dst dstIdx
  let endTotal ← totalSolValue w
  require (startTotal ≤ endTotal) .poolWouldLoseSolValue
  pure w

/-- `process_swap_exact_in`, processor/swap_exact_in.rs:34-221. -/
def processSwapExactIn (cfg : Cfg) (L : RatioLib) (env : Env cfg) (w : World) (accs : List Acc)
    (args : SwapExactInArgs) : R World := do
  require (args.amount ≠ 0) .zeroValue
  let (a, suffix) ← SwapAccs.load accs
  let c ← verifySwap cfg w a suffix args.srcLstValueCalcAccs args.dstLstValueCalcAccs
    args.srcLstIndex args.dstLstIndex
  let w ← syncUnchecked env 0 w a.srcPoolReserves.key c.src args.srcLstIndex
  let w ← syncUnchecked env 1 w a.dstPoolReserves.key c.dst args.dstLstIndex
  let startTotal ← totalSolValue w
  let (inSol, w) ← c.src.ask env 2 w (.lstToSol args.amount)
  require (inSol.min ≠ 0) .zeroValue
  let (outSol, w) ← c.pricing.ask env 3 w (.exactIn args.amount inSol.min)
  let (dstOut, w) ← c.dst.ask env 4 w (.solToLst outSol)
  require (args.minAmountOut ≤ dstOut.min) .slippageToleranceExceeded
  require (dstOut.min ≠ 0) .zeroValue
  let p ← getPool w
  let fee ← calcSwapProtocolFees L inSol.min outSol dstOut.min p.tradingProtocolFeeBps
  finishSwap env w a c args.srcLstIndex args.dstLstIndex startTotal args.amount dstOut.min fee

/-- `process_swap_exact_out`, processor/swap_exact_out.rs:33-220. -/
def processSwapExactOut (cfg : Cfg) (L : RatioLib) (env : Env cfg) (w : World) (accs : List Acc)
    (args : SwapExactOutArgs) : R World := do
  require (args.amount ≠ 0 ∧ args.maxAmountIn ≠ 0) .zeroValue
  let (a, suffix) ← SwapAccs.load accs
  let c ← verifySwap cfg w a suffix args.srcLstValueCalcAccs args.dstLstValueCalcAccs
    args.srcLstIndex args.dstLstIndex
  let w ← syncUnchecked env 0 w a.srcPoolReserves.key c.src args.srcLstIndex
  let w ← syncUnchecked env 1 w a.dstPoolReserves.key c.dst args.dstLstIndex
  let startTotal ← totalSolValue w
  let (outSol, w) ← c.dst.ask env 2 w (.lstToSol args.amount)
  require (outSol.max ≠ 0) .zeroValue
  let (inSol, w) ← c.pricing.ask env 3 w (.exactOut args.amount outSol.max)
  let (srcIn, w) ← c.src.ask env 4 w (.solToLst inSol)
  require (srcIn.max ≤ args.maxAmountIn) .slippageToleranceExceeded
  require (srcIn.max ≠ 0) .zeroValue
  let p ← getPool w
  let fee ← calcSwapProtocolFees L inSol outSol.max args.amount p.tradingProtocolFeeBps
  finishSwap env w a c args.srcLstIndex args.dstLstIndex startTotal srcIn.max args.amount fee

/-! ### AddLiquidity, RemoveLiquidity -/

/-- `AddLiquidityAccounts` / `RemoveLiquidityAccounts`, generated/s_controller_interface/src/instructions.rs.
`userLst` is `src_lst_acc` / `dst_lst_acc`, `userLp` is `dst_lp_acc` / `src_lp_acc`. -/
structure LiqAccs where
  signer : Acc
  lstMint : Acc
  userLst : Acc
  userLp : Acc
  lpTokenMint : Acc
  protocolFeeAccumulator : Acc
  lstTokenProgram : Acc
  lpTokenProgram : Acc
  poolState : Acc
  lstStateList : Acc
  poolReserves : Acc
deriving DecidableEq, Repr

def LiqAccs.load : List Acc → R (LiqAccs × List Acc)
  | a :: b :: c :: d :: e :: f :: g :: h :: i :: j :: k :: rest =>
    .ok (⟨a, b, c, d, e, f, g, h, i, j, k⟩, rest)
  | _ => .error .notEnoughAccountKeys

/-- `AddLiquidityIxArgs`, generated/s_controller_interface/src/instructions.rs. -/
structure AddLiquidityArgs where
  lstValueCalcAccs : Nat
  lstIndex : Nat
  lstAmount : Nat
  minLpOut : Nat
deriving DecidableEq, Repr

/-- `RemoveLiquidityIxArgs`, generated/s_controller_interface/src/instructions.rs. -/
structure RemoveLiquidityArgs where
  lstValueCalcAccs : Nat
  lstIndex : Nat
  lpTokenAmount : Nat
  minLstOut : Nat
deriving DecidableEq, Repr

/-- `verify_add_liquidity` (checkInput = true, processor/add_liquidity.rs:154-191) and `verify_remove_liquidity`
(checkInput = false, processor/remove_liquidity.rs:146-177), with `AddLiquidityFreeArgs::resolve`
(accounts_resolvers/add_liquidity.rs:35-75) and `RemoveLiquidityFreeArgs::resolve`
(accounts_resolvers/remove_liquidity.rs:35-75). -/
def verifyLiq (cfg : Cfg) (w : World) (a : LiqAccs) (suffix : List Acc) (calcAccs i : Nat)
    (checkInput : Bool) : R LpCpis := do
  require (a.poolState.key = cfg.poolState) .incorrectPoolState
  require (a.lstStateList.key = cfg.lstStateList) .incorrectLstStateList
  let s ← matchLst a.lstMint.key w.ctl.lsts i
  let tp ← mintProgram w.led a.lstMint.key
  let res ← poolReserves cfg s tp
  let acc ← feeAccumulator cfg s tp
  let p ← getPool w
  checkKeys [(a.lpTokenMint.key, p.lpTokenMint), (a.protocolFeeAccumulator.key, acc),
    (a.lstTokenProgram.key, tp), (a.lpTokenProgram.key, cfg.splToken), (a.poolState.key, cfg.poolState),
    (a.lstStateList.key, cfg.lstStateList), (a.poolReserves.key, res)]
  checkWritable [a.userLst, a.userLp, a.lpTokenMint, a.protocolFeeAccumulator, a.poolState, a.lstStateList,
    a.poolReserves]
  checkSigner [a.signer]
  verifyActive p
  require (checkInput = true → ¬ isTrue s.isInputDisabled) .lstInputDisabled
  verifyLpCpis w.ctl.lsts p a.lstMint.key suffix calcAccs i

/-- `process_add_liquidity`, processor/add_liquidity.rs:33-205. -/
def processAddLiquidity (cfg : Cfg) (L : RatioLib) (env : Env cfg) (w : World) (accs : List Acc)
    (args : AddLiquidityArgs) : R World := do
  require (args.lstAmount ≠ 0) .zeroValue
  let (a, suffix) ← LiqAccs.load accs
  let c ← verifyLiq cfg w a suffix args.lstValueCalcAccs args.lstIndex true
  let w ← syncUnchecked env 0 w a.poolReserves.key c.lst args.lstIndex
  let startTotal ← totalSolValue w
  let (v, w) ← c.lst.ask env 1 w (.lstToSol args.lstAmount)
  let (vAfter, w) ← c.pricing.ask env 2 w (.lpTokensToMint args.lstAmount v.min)
  require (vAfter ≤ v.min) .poolWouldLoseSolValue
  let p ← getPool w
  let fees ← calcAddLiquidityProtocolFees L args.lstAmount v.min vAfter p.lpProtocolFeeBps
  let supply ← mintSupply w.led a.lpTokenMint.key
  let lp ← calcLpTokensToMint L ⟨supply, p.totalSolValue⟩ vAfter
  require (fees.toReserves ≠ 0 ∧ lp ≠ 0) .zeroValue
  require (args.minLpOut ≤ lp) .slippageToleranceExceeded
  let l ← transfer w.led ⟨a.userLst.key, a.poolReserves.key, a.lstTokenProgram.key, a.signer.key, a.lstMint.key⟩
    fees.toReserves
  let l ← transfer l ⟨a.userLst.key, a.protocolFeeAccumulator.key, a.lstTokenProgram.key, a.signer.key,
    a.lstMint.key⟩ fees.toProtocolFees
  let l ← mintTo l a.lpTokenMint.key a.userLp.key a.lpTokenProgram.key a.poolState.key lp
  let w ← syncUnchecked env 3 { w with led := l } a.poolReserves.key c.lst args.lstIndex
  let endTotal ← totalSolValue w
  require (startTotal ≤ endTotal) .poolWouldLoseSolValue
  pure w

/-- `process_remove_liquidity`, processor/remove_liquidity.rs:30-191. -/
def processRemoveLiquidity (cfg : Cfg) (L : RatioLib) (env : Env cfg) (w : World) (accs : List Acc)
    (args : RemoveLiquidityArgs) : R World := do
  require (args.lpTokenAmount ≠ 0) .zeroValue
  let (a, suffix) ← LiqAccs.load accs
  let c ← verifyLiq cfg w a suffix args.lstValueCalcAccs args.lstIndex false
  let w ← syncUnchecked env 0 w a.poolReserves.key c.lst args.lstIndex
  let p ← getPool w
  let supply ← mintSupply w.led a.lpTokenMint.key
  let v ← calcLpTokensSolValue L ⟨supply, p.totalSolValue⟩ args.lpTokenAmount
  let (vAfter, w) ← c.pricing.ask env 1 w (.lpTokensToRedeem args.lpTokenAmount v)
  require (vAfter ≤ v) .poolWouldLoseSolValue
  let (out, w) ← c.lst.ask env 2 w (.solToLst vAfter)
  let fee ← calcRemoveLiquidityProtocolFees L v vAfter out.min p.lpProtocolFeeBps
  require (out.min ≠ 0) .zeroValue
  require (args.minLstOut ≤ out.min) .slippageToleranceExceeded
  let l ← burn w.led a.lpTokenMint.key a.userLp.key a.lpTokenProgram.key a.signer.key args.lpTokenAmount
  let l ← transfer l ⟨a.poolReserves.key, a.userLst.key, a.lstTokenProgram.key, a.poolState.key, a.lstMint.key⟩
    out.min
  let l ← transfer l ⟨a.poolReserves.key, a.protocolFeeAccumulator.key, a.lstTokenProgram.key, a.poolState.key,
    a.lstMint.key⟩ fee
  syncUnchecked env 3 { w with led := l } a.poolReserves.key c.lst args.lstIndex

end S
