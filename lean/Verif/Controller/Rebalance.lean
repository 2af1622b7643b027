import Verif.Controller.Verify
/-
StartRebalance and EndRebalance.
-/
set_option autoImplicit false
namespace S

/-- A top-level instruction of a transaction, as seen through the instructions sysvar. -/
structure TopIx where
  program : Pubkey
  accs : List Acc
  data : List UInt8
deriving DecidableEq, Repr

/-- What the instructions sysvar shows: all top-level instructions and the index of the one being executed
(also when the controller is called by CPI from it). -/
structure TxInfo where
  ixs : List TopIx
  cur : Nat
deriving DecidableEq, Repr

/-- `END_REBALANCE_IX_DISCM`, generated/s_controller_interface/src/instructions.rs. -/
abbrev endRebalanceDiscm : UInt8 := 20

/-- `is_end_rebalance_ix`, processor/start_rebalance.rs:214-232. -/
def isEndRebalanceIx (cfg : Cfg) (ix : TopIx) (dstMint : Pubkey) : Bool :=
  match ix.data with
  | [] => false
  | d :: _ =>
    if d ≠ endRebalanceDiscm then false
    else if ix.program ≠ cfg.programId then false
    else match ix.accs[4]? with
      | none => false
      | some a => a.key == dstMint

/-- The loop of `verify_has_succeeding_end_rebalance_ix`, processor/start_rebalance.rs:196-212, over the
instructions after the current one. -/
def searchEndRebalance (cfg : Cfg) (dstMint : Pubkey) : List TopIx → R Unit
  | [] => .error .noSucceedingEndRebalance
  | ix :: rest => if isEndRebalanceIx cfg ix dstMint then .ok () else searchEndRebalance cfg dstMint rest

/-- `verify_has_succeeding_end_rebalance_ix`, processor/start_rebalance.rs:196-212. -/
def verifySucceedingEnd (cfg : Cfg) (tx : TxInfo) (dstMint : Pubkey) : R Unit :=
  searchEndRebalance cfg dstMint (tx.ixs.drop (tx.cur + 1))

/-- `StartRebalanceAccounts`, generated/s_controller_interface/src/instructions.rs. -/
structure StartRebAccs where
  rebalanceAuthority : Acc
  poolState : Acc
  lstStateList : Acc
  rebalanceRecord : Acc
  srcLstMint : Acc
  dstLstMint : Acc
  srcPoolReserves : Acc
  dstPoolReserves : Acc
  withdrawTo : Acc
  instructions : Acc
  systemProgram : Acc
  srcLstTokenProgram : Acc
deriving DecidableEq, Repr

def StartRebAccs.load : List Acc → R (StartRebAccs × List Acc)
  | a :: b :: c :: d :: e :: f :: g :: h :: i :: j :: k :: l :: rest =>
    .ok (⟨a, b, c, d, e, f, g, h, i, j, k, l⟩, rest)
  | _ => .error .notEnoughAccountKeys

/-- `StartRebalanceIxArgs`, generated/s_controller_interface/src/instructions.rs. -/
structure StartRebalanceArgs where
  srcLstCalcAccs : Nat
  srcLstIndex : Nat
  dstLstIndex : Nat
  amount : Nat
  minStartingSrcLst : Nat
  maxStartingDstLst : Nat
deriving DecidableEq, Repr

/-- `verify_start_rebalance`, processor/start_rebalance.rs:122-194, with `StartRebalanceFreeArgs::resolve`,
accounts_resolvers/start_rebalance.rs:56-94. -/
def verifyStartRebalance (cfg : Cfg) (tx : TxInfo) (w : World) (a : StartRebAccs) (suffix : List Acc)
    (args : StartRebalanceArgs) : R SrcDstCpis := do
  require (a.lstStateList.key = cfg.lstStateList) .incorrectLstStateList
  require (a.poolState.key = cfg.poolState) .incorrectPoolState
  let src ← matchLst a.srcLstMint.key w.ctl.lsts args.srcLstIndex
  let srcTp ← mintProgram w.led a.srcLstMint.key
  let srcRes ← poolReserves cfg src srcTp
  let dst ← matchLst a.dstLstMint.key w.ctl.lsts args.dstLstIndex
  let dstTp ← mintProgram w.led a.dstLstMint.key
  let dstRes ← poolReserves cfg dst dstTp
  let p ← getPool w
  checkKeys [(a.rebalanceAuthority.key, p.rebalanceAuthority), (a.poolState.key, cfg.poolState),
    (a.lstStateList.key, cfg.lstStateList), (a.rebalanceRecord.key, cfg.rebalanceRecord),
    (a.srcLstMint.key, src.mint), (a.dstLstMint.key, dst.mint), (a.srcPoolReserves.key, srcRes),
    (a.dstPoolReserves.key, dstRes), (a.instructions.key, cfg.instructionsSysvar),
    (a.systemProgram.key, cfg.systemProgram), (a.srcLstTokenProgram.key, srcTp)]
  checkWritable [a.poolState, a.lstStateList, a.rebalanceRecord, a.srcPoolReserves, a.dstPoolReserves,
    a.withdrawTo]
  checkSigner [a.rebalanceAuthority]
  let srcBal ← tokenBalance w.led a.srcPoolReserves.key
  require (args.minStartingSrcLst ≤ srcBal) .slippageToleranceExceeded
  let dstBal ← tokenBalance w.led a.dstPoolReserves.key
  require (dstBal ≤ args.maxStartingDstLst) .slippageToleranceExceeded
  verifyActive p
  verifyInputEnabled dst
  let c ← verifySrcDstCpis w.ctl.lsts a.srcLstMint.key a.dstLstMint.key suffix args.srcLstCalcAccs
    args.srcLstIndex args.dstLstIndex
  verifySucceedingEnd cfg tx a.dstLstMint.key
  pure c

/-- `process_start_rebalance`, processor/start_rebalance.rs:43-120. Allocating the rebalance record fails if it exists. -/
def processStartRebalance (cfg : Cfg) (env : Env cfg) (tx : TxInfo) (w : World) (accs : List Acc)
    (args : StartRebalanceArgs) : R World := do
  let (a, suffix) ← StartRebAccs.load accs
  let c ← verifyStartRebalance cfg tx w a suffix args
  let w ← syncUnchecked env 0 w a.srcPoolReserves.key c.src args.srcLstIndex
  let w ← syncUnchecked env 1 w a.dstPoolReserves.key c.dst args.dstLstIndex
  let oldTotal ← totalSolValue w
  let l ← transfer w.led ⟨a.srcPoolReserves.key, a.withdrawTo.key, a.srcLstTokenProgram.key, a.poolState.key,
    a.srcLstMint.key⟩ args.amount
  let w ← syncUnchecked env 2 { w with led := l } a.srcPoolReserves.key c.src args.srcLstIndex
  require (w.ctl.rebal = none) .system
  let p ← getPool w
  pure { w with ctl := { w.ctl with
    rebal := some ⟨oldTotal, args.dstLstIndex⟩
    pool := some { p with isRebalancing := 1 } } }

/-- `EndRebalanceAccounts`, generated/s_controller_interface/src/instructions.rs. -/
structure EndRebAccs where
  rebalanceAuthority : Acc
  poolState : Acc
  lstStateList : Acc
  rebalanceRecord : Acc
  dstLstMint : Acc
  dstPoolReserves : Acc
deriving DecidableEq, Repr

def EndRebAccs.load : List Acc → R (EndRebAccs × List Acc)
  | a :: b :: c :: d :: e :: f :: rest => .ok (⟨a, b, c, d, e, f⟩, rest)
  | _ => .error .notEnoughAccountKeys

/-- `process_end_rebalance`, processor/end_rebalance.rs:25-103, with `EndRebalanceFreeArgs::resolve`,
accounts_resolvers/end_rebalance.rs:30-68. -/
def processEndRebalance (cfg : Cfg) (env : Env cfg) (w : World) (accs : List Acc) : R World := do
  let (a, suffix) ← EndRebAccs.load accs
  require (a.poolState.key = cfg.poolState) .incorrectPoolState
  require (a.lstStateList.key = cfg.lstStateList) .incorrectLstStateList
  require (a.rebalanceRecord.key = cfg.rebalanceRecord) .incorrectRebalanceRecord
  let p ← getPool w
  let rr ← okOr w.ctl.rebal .invalidRebalanceRecordData
  let dst ← matchLst a.dstLstMint.key w.ctl.lsts rr.dstLstIndex
  let tp ← mintProgram w.led a.dstLstMint.key
  let res ← poolReserves cfg dst tp
  checkKeys [(a.rebalanceAuthority.key, p.rebalanceAuthority), (a.poolState.key, cfg.poolState),
    (a.lstStateList.key, cfg.lstStateList), (a.rebalanceRecord.key, cfg.rebalanceRecord),
    (a.dstLstMint.key, dst.mint), (a.dstPoolReserves.key, res)]
  checkWritable [a.poolState, a.lstStateList, a.rebalanceRecord]
  checkSigner [a.rebalanceAuthority]
  require (isTrue p.isRebalancing) .poolNotRebalancing
  let c ← verifyCalcCpi w.ctl.lsts a.dstLstMint.key suffix rr.dstLstIndex
  let w := { w with ctl := { w.ctl with pool := some { p with isRebalancing := 0 } } }
  let w ← syncUnchecked env 0 w a.dstPoolReserves.key c rr.dstLstIndex
  let total ← totalSolValue w
  require (rr.oldTotalSolValue ≤ total) .poolWouldLoseSolValue
  pure { w with ctl := { w.ctl with rebal := none } }

end S
