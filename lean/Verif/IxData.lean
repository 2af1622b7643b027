import Verif.Controller.User
import Verif.Controller.Admin
import Verif.Controller.Rebalance
/-
Instruction data of the S controller: `SControllerProgramIx`,
generated/s_controller_interface/src/instructions.rs:1-172 (discriminator byte followed by the borsh encoding of the arguments),
and `process_instruction`, programs/s-controller/src/entrypoint.rs:14-65.
-/
set_option autoImplicit false
namespace S

/-- `SControllerProgramIx`, generated/s_controller_interface/src/instructions.rs:11-36. -/
inductive Ix
  | syncSolValue (lstIndex : Nat)
  | swapExactIn (args : SwapExactInArgs)
  | swapExactOut (args : SwapExactOutArgs)
  | addLiquidity (args : AddLiquidityArgs)
  | removeLiquidity (args : RemoveLiquidityArgs)
  | disableLstInput (index : Nat)
  | enableLstInput (index : Nat)
  | addLst
  | removeLst (lstIndex : Nat)
  | setSolValueCalculator (lstIndex : Nat)
  | setAdmin
  | setProtocolFee (args : SetProtocolFeeArgs)
  | setProtocolFeeBeneficiary
  | setPricingProgram
  | withdrawProtocolFees (amount : Nat)
  | addDisablePoolAuthority
  | removeDisablePoolAuthority (index : Nat)
  | disablePool
  | enablePool
  | startRebalance (args : StartRebalanceArgs)
  | endRebalance
  | setRebalanceAuthority
  | initialize
deriving DecidableEq, Repr

/-- Little-endian bytes of a `k`-byte integer. -/
def toLE : Nat → Nat → List UInt8
  | 0, _ => []
  | k + 1, n => UInt8.ofNat (n % 256) :: toLE k (n / 256)

/-- Value of little-endian bytes. -/
def ofLE : List UInt8 → Nat
  | [] => 0
  | b :: bs => b.toNat + 256 * ofLE bs

/-- Borsh: read a `k`-byte little-endian integer. -/
def readLE (k : Nat) (buf : List UInt8) : R (Nat × List UInt8) :=
  if k ≤ buf.length then .ok (ofLE (buf.take k), buf.drop k) else .error .decode

/-- Borsh: `Option<T>` is a tag byte 0 or 1 followed by the value. -/
def readOpt (k : Nat) (buf : List UInt8) : R (Option Nat × List UInt8) :=
  match buf with
  | [] => .error .decode
  | t :: r =>
    if t = 0 then .ok (none, r)
    else if t = 1 then do
      let (n, r) ← readLE k r
      pure (some n, r)
    else .error .decode

def optBytes (k : Nat) : Option Nat → List UInt8
  | none => [0]
  | some n => 1 :: toLE k n

/-- Discriminator byte (`*_IX_DISCM` constants, generated/s_controller_interface/src/instructions.rs). -/
def Ix.discm : Ix → UInt8
  | .syncSolValue _ => 0
  | .swapExactIn _ => 1
  | .swapExactOut _ => 2
  | .addLiquidity _ => 3
  | .removeLiquidity _ => 4
  | .disableLstInput _ => 5
  | .enableLstInput _ => 6
  | .addLst => 7
  | .removeLst _ => 8
  | .setSolValueCalculator _ => 9
  | .setAdmin => 10
  | .setProtocolFee _ => 11
  | .setProtocolFeeBeneficiary => 12
  | .setPricingProgram => 13
  | .withdrawProtocolFees _ => 14
  | .addDisablePoolAuthority => 15
  | .removeDisablePoolAuthority _ => 16
  | .disablePool => 17
  | .enablePool => 18
  | .startRebalance _ => 19
  | .endRebalance => 20
  | .setRebalanceAuthority => 21
  | .initialize => 22

/-- Borsh encoding of the arguments (`*IxArgs`, field order as declared). -/
def Ix.argBytes : Ix → List UInt8
  | .syncSolValue i => toLE 4 i
  | .swapExactIn a => toLE 1 a.srcLstValueCalcAccs ++ (toLE 1 a.dstLstValueCalcAccs ++ (toLE 4 a.srcLstIndex ++
      (toLE 4 a.dstLstIndex ++ (toLE 8 a.minAmountOut ++ toLE 8 a.amount))))
  | .swapExactOut a => toLE 1 a.srcLstValueCalcAccs ++ (toLE 1 a.dstLstValueCalcAccs ++ (toLE 4 a.srcLstIndex ++
      (toLE 4 a.dstLstIndex ++ (toLE 8 a.maxAmountIn ++ toLE 8 a.amount))))
  | .addLiquidity a => toLE 1 a.lstValueCalcAccs ++ (toLE 4 a.lstIndex ++ (toLE 8 a.lstAmount ++ toLE 8 a.minLpOut))
  | .removeLiquidity a =>
      toLE 1 a.lstValueCalcAccs ++ (toLE 4 a.lstIndex ++ (toLE 8 a.lpTokenAmount ++ toLE 8 a.minLstOut))
  | .disableLstInput i => toLE 4 i
  | .enableLstInput i => toLE 4 i
  | .addLst => []
  | .removeLst i => toLE 4 i
  | .setSolValueCalculator i => toLE 4 i
  | .setAdmin => []
  | .setProtocolFee a => optBytes 2 a.newTradingProtocolFeeBps ++ optBytes 2 a.newLpProtocolFeeBps
  | .setProtocolFeeBeneficiary => []
  | .setPricingProgram => []
  | .withdrawProtocolFees n => toLE 8 n
  | .addDisablePoolAuthority => []
  | .removeDisablePoolAuthority i => toLE 4 i
  | .disablePool => []
  | .enablePool => []
  | .startRebalance a => toLE 1 a.srcLstCalcAccs ++ (toLE 4 a.srcLstIndex ++ (toLE 4 a.dstLstIndex ++
      (toLE 8 a.amount ++ (toLE 8 a.minStartingSrcLst ++ toLE 8 a.maxStartingDstLst))))
  | .endRebalance => []
  | .setRebalanceAuthority => []
  | .initialize => []

/-- `SControllerProgramIx::serialize`, generated/s_controller_interface/src/instructions.rs:97-166. -/
def Ix.encode (ix : Ix) : List UInt8 := ix.discm :: ix.argBytes

/-- `SControllerProgramIx::deserialize`, generated/s_controller_interface/src/instructions.rs:38-95. Trailing bytes are
ignored. -/
def decodeIx (buf : List UInt8) : R Ix :=
  match buf with
  | [] => .error .decode
  | d :: r =>
    match d.toNat with
    | 0 => do let (i, _) ← readLE 4 r; pure (.syncSolValue i)
    | 1 => do
      let (a, r) ← readLE 1 r
      let (b, r) ← readLE 1 r
      let (c, r) ← readLE 4 r
      let (d, r) ← readLE 4 r
      let (e, r) ← readLE 8 r
      let (f, _) ← readLE 8 r
      pure (.swapExactIn ⟨a, b, c, d, e, f⟩)
    | 2 => do
      let (a, r) ← readLE 1 r
      let (b, r) ← readLE 1 r
      let (c, r) ← readLE 4 r
      let (d, r) ← readLE 4 r
      let (e, r) ← readLE 8 r
      let (f, _) ← readLE 8 r
      pure (.swapExactOut ⟨a, b, c, d, e, f⟩)
    | 3 => do
      let (a, r) ← readLE 1 r
      let (b, r) ← readLE 4 r
      let (c, r) ← readLE 8 r
      let (d, _) ← readLE 8 r
      pure (.addLiquidity ⟨a, b, c, d⟩)
    | 4 => do
      let (a, r) ← readLE 1 r
      let (b, r) ← readLE 4 r
      let (c, r) ← readLE 8 r
      let (d, _) ← readLE 8 r
      pure (.removeLiquidity ⟨a, b, c, d⟩)
    | 5 => do let (i, _) ← readLE 4 r; pure (.disableLstInput i)
    | 6 => do let (i, _) ← readLE 4 r; pure (.enableLstInput i)
    | 7 => pure .addLst
    | 8 => do let (i, _) ← readLE 4 r; pure (.removeLst i)
    | 9 => do let (i, _) ← readLE 4 r; pure (.setSolValueCalculator i)
    | 10 => pure .setAdmin
    | 11 => do
      let (a, r) ← readOpt 2 r
      let (b, _) ← readOpt 2 r
      pure (.setProtocolFee ⟨a, b⟩)
    | 12 => pure .setProtocolFeeBeneficiary
    | 13 => pure .setPricingProgram
    | 14 => do let (n, _) ← readLE 8 r; pure (.withdrawProtocolFees n)
    | 15 => pure .addDisablePoolAuthority
    | 16 => do let (i, _) ← readLE 4 r; pure (.removeDisablePoolAuthority i)
    | 17 => pure .disablePool
    | 18 => pure .enablePool
    | 19 => do
      let (a, r) ← readLE 1 r
      let (b, r) ← readLE 4 r
      let (c, r) ← readLE 4 r
      let (d, r) ← readLE 8 r
      let (e, r) ← readLE 8 r
      let (f, _) ← readLE 8 r
      pure (.startRebalance ⟨a, b, c, d, e, f⟩)
    | 20 => pure .endRebalance
    | 21 => pure .setRebalanceAuthority
    | 22 => pure .initialize
    | _ => .error .decode

/-- `process_instruction` after decoding, programs/s-controller/src/entrypoint.rs:26-59. -/
def processIx (cfg : Cfg) (L : RatioLib) (env : Env cfg) (tx : TxInfo) (w : World) (accs : List Acc) :
    Ix → R World
  | .syncSolValue i => processSync cfg env w accs i
  | .swapExactIn a => processSwapExactIn cfg L env w accs a
  | .swapExactOut a => processSwapExactOut cfg L env w accs a
  | .addLiquidity a => processAddLiquidity cfg L env w accs a
  | .removeLiquidity a => processRemoveLiquidity cfg L env w accs a
  | .disableLstInput i => processDisableLstInput cfg w accs i
  | .enableLstInput i => processEnableLstInput cfg w accs i
  | .addLst => processAddLst cfg w accs
  | .removeLst i => processRemoveLst cfg w accs i
  | .setSolValueCalculator i => processSetSolValueCalculator cfg env w accs i
  | .setAdmin => processSetAdmin cfg w accs
  | .setProtocolFee a => processSetProtocolFee cfg w accs a
  | .setProtocolFeeBeneficiary => processSetBeneficiary cfg w accs
  | .setPricingProgram => processSetPricing cfg w accs
  | .withdrawProtocolFees n => processWithdraw cfg w accs n
  | .addDisablePoolAuthority => processAddAuth cfg w accs
  | .removeDisablePoolAuthority i => processRemoveAuth cfg w accs i
  | .disablePool => processDisablePool cfg w accs
  | .enablePool => processEnablePool cfg w accs
  | .startRebalance a => processStartRebalance cfg env tx w accs a
  | .endRebalance => processEndRebalance cfg env w accs
  | .setRebalanceAuthority => processSetRebAuth cfg w accs
  | .initialize => processInitialize cfg w accs

/-- `process_instruction`, programs/s-controller/src/entrypoint.rs:14-65. -/
def processInstruction (cfg : Cfg) (L : RatioLib) (env : Env cfg) (tx : TxInfo) (w : World)
    (programId : Pubkey) (accs : List Acc) (data : List UInt8) : R World := do
  require (programId = cfg.programId) .incorrectProgramId
  let ix ← decodeIx data
  processIx cfg L env tx w accs ix

end S
