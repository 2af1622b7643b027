import Verif.Controller.Verify
/-
Privileged instructions of the S controller, except rebalancing.
-/
set_option autoImplicit false
namespace S

/-- Replaces the pool state. -/
def World.setPool (w : World) (p : PoolState) : World := { w with ctl := { w.ctl with pool := some p } }

/-- Replaces the LST state list. -/
def World.setLsts (w : World) (ls : List LstState) : World := { w with ctl := { w.ctl with lsts := ls } }

/-! ### DisableLstInput, EnableLstInput -/

/-- `DisableLstInputAccounts` / `EnableLstInputAccounts`, generated/s_controller_interface/src/instructions.rs. -/
structure LstInputAccs where
  admin : Acc
  lstMint : Acc
  poolState : Acc
  lstStateList : Acc
deriving DecidableEq, Repr

def LstInputAccs.load : List Acc → R LstInputAccs
  | a :: b :: c :: d :: _ => .ok ⟨a, b, c, d⟩
  | _ => .error .notEnoughAccountKeys

/-- `verify_disable_lst_input` / `verify_enable_lst_input` and the write, processor/disable_lst_input.rs:18-58 (flag = 1),
processor/enable_lst_input.rs:18-56 (flag = 0), with `DisableEnableLstInputFreeArgs`,
accounts_resolvers/disable_enable_lst_input.rs:29-80. -/
def processSetLstInput (cfg : Cfg) (w : World) (accs : List Acc) (i flag : Nat) : R World := do
  let a ← LstInputAccs.load accs
  require (a.poolState.key = cfg.poolState) .incorrectPoolState
  require (a.lstStateList.key = cfg.lstStateList) .incorrectLstStateList
  let s ← okOr w.ctl.lsts[i]? .invalidLstIndex
  let p ← getPool w
  checkKeys [(a.admin.key, p.admin), (a.lstMint.key, s.mint), (a.poolState.key, cfg.poolState),
    (a.lstStateList.key, cfg.lstStateList)]
  checkWritable [a.poolState, a.lstStateList]
  checkSigner [a.admin]
  verifyActive p
  pure (w.setLsts (w.ctl.lsts.set i { s with isInputDisabled := flag }))

/-- `process_disable_lst_input`, processor/disable_lst_input.rs:18-31 (`set_true` writes 1). -/
def processDisableLstInput (cfg : Cfg) (w : World) (accs : List Acc) (i : Nat) : R World :=
  processSetLstInput cfg w accs i 1

/-- `process_enable_lst_input`, processor/enable_lst_input.rs:18-31 (`set_false` writes 0). -/
def processEnableLstInput (cfg : Cfg) (w : World) (accs : List Acc) (i : Nat) : R World :=
  processSetLstInput cfg w accs i 0

/-! ### AddLst -/

/-- `AddLstAccounts`, generated/s_controller_interface/src/instructions.rs. -/
structure AddLstAccs where
  admin : Acc
  payer : Acc
  lstMint : Acc
  poolReserves : Acc
  protocolFeeAccumulator : Acc
  protocolFeeAccumulatorAuth : Acc
  solValueCalculator : Acc
  poolState : Acc
  lstStateList : Acc
  associatedTokenProgram : Acc
  systemProgram : Acc
  lstTokenProgram : Acc
deriving DecidableEq, Repr

def AddLstAccs.load : List Acc → R AddLstAccs
  | a :: b :: c :: d :: e :: f :: g :: h :: i :: j :: k :: l :: _ =>
    .ok ⟨a, b, c, d, e, f, g, h, i, j, k, l⟩
  | _ => .error .notEnoughAccountKeys

/-- `create_ata_if_not_exist`, processor/add_lst.rs:80-86, with `verify_token_account_authority`,
libs/sanctum-s-common/src/token.rs. -/
def createAtaIfNotExist (cfg : Cfg) (l : Ledger) (acc wallet tokenProgram mint : Pubkey) : R Ledger :=
  match l.tok acc with
  | none => createAta cfg l acc wallet tokenProgram mint
  | some a => do
    require (a.owner = wallet) .invalidAccountData
    pure l

/-- `process_add_lst`, processor/add_lst.rs:24-129, with `AddLstFreeArgs::resolve`,
accounts_resolvers/add_lst.rs:38-112, `verify_tokenkeg_or_22_mint`, libs/sanctum-s-common/src/token.rs,
and `extend_list_pda`, programs/s-controller/src/list_account.rs:22-51 (lamports not modelled; the byte-level list is in
`Verif.Serde`). -/
def processAddLst (cfg : Cfg) (w : World) (accs : List Acc) : R World := do
  let a ← AddLstAccs.load accs
  require (a.poolState.key = cfg.poolState) .incorrectPoolState
  let p ← getPool w
  let tp ← mintProgram w.led a.lstMint.key
  let res := cfg.findAta cfg.poolState tp a.lstMint.key
  let acc := cfg.findAta cfg.protocolFee tp a.lstMint.key
  checkKeys [(a.admin.key, p.admin), (a.poolReserves.key, res.1), (a.protocolFeeAccumulator.key, acc.1),
    (a.protocolFeeAccumulatorAuth.key, cfg.protocolFee), (a.poolState.key, cfg.poolState),
    (a.lstStateList.key, cfg.lstStateList), (a.associatedTokenProgram.key, cfg.ataProgram),
    (a.systemProgram.key, cfg.systemProgram), (a.lstTokenProgram.key, tp)]
  checkWritable [a.payer, a.poolReserves, a.protocolFeeAccumulator, a.protocolFeeAccumulatorAuth, a.lstStateList]
  checkSigner [a.admin, a.payer]
  require (tp = cfg.splToken ∨ tp = cfg.token22) .illegalOwner
  require (w.led.exec a.solValueCalculator.key = true) .faultySolValueCalculator
  require (∀ s ∈ w.ctl.lsts, s.mint ≠ a.lstMint.key) .duplicateLst
  verifyActive p
  let l ← createAtaIfNotExist cfg w.led a.poolReserves.key a.poolState.key a.lstTokenProgram.key a.lstMint.key
  let l ← createAtaIfNotExist cfg l a.protocolFeeAccumulator.key a.protocolFeeAccumulatorAuth.key
    a.lstTokenProgram.key a.lstMint.key
  pure { ctl := { w.ctl with lsts := w.ctl.lsts ++ [{
            isInputDisabled := 0
            poolReservesBump := res.2
            protocolFeeAccumulatorBump := acc.2
            solValue := 0
            mint := a.lstMint.key
            solValueCalculator := a.solValueCalculator.key }] }
         led := l }

/-! ### RemoveLst -/

/-- `RemoveLstAccounts`, generated/s_controller_interface/src/instructions.rs. -/
structure RemoveLstAccs where
  admin : Acc
  refundRentTo : Acc
  lstMint : Acc
  poolReserves : Acc
  protocolFeeAccumulator : Acc
  protocolFeeAccumulatorAuth : Acc
  poolState : Acc
  lstStateList : Acc
  lstTokenProgram : Acc
deriving DecidableEq, Repr

def RemoveLstAccs.load : List Acc → R RemoveLstAccs
  | a :: b :: c :: d :: e :: f :: g :: h :: i :: _ => .ok ⟨a, b, c, d, e, f, g, h, i⟩
  | _ => .error .notEnoughAccountKeys

/-- `process_remove_lst`, processor/remove_lst.rs:25-94, with `RemoveLstFreeArgs::resolve`,
accounts_resolvers/remove_lst.rs:33-70, and `remove_from_list_pda`, programs/s-controller/src/list_account.rs:64-112
(lamports not modelled; the byte-level list is in `Verif.Serde`). -/
def processRemoveLst (cfg : Cfg) (w : World) (accs : List Acc) (i : Nat) : R World := do
  let a ← RemoveLstAccs.load accs
  require (a.poolState.key = cfg.poolState) .incorrectPoolState
  require (a.lstStateList.key = cfg.lstStateList) .incorrectLstStateList
  let s ← matchLst a.lstMint.key w.ctl.lsts i
  let tp ← mintProgram w.led a.lstMint.key
  let res ← poolReserves cfg s tp
  let acc ← feeAccumulator cfg s tp
  let p ← getPool w
  checkKeys [(a.admin.key, p.admin), (a.poolReserves.key, res), (a.protocolFeeAccumulator.key, acc),
    (a.protocolFeeAccumulatorAuth.key, cfg.protocolFee), (a.poolState.key, cfg.poolState),
    (a.lstStateList.key, cfg.lstStateList), (a.lstTokenProgram.key, tp)]
  checkWritable [a.refundRentTo, a.poolReserves, a.protocolFeeAccumulator, a.protocolFeeAccumulatorAuth,
    a.lstStateList]
  checkSigner [a.admin]
  verifyActive p
  let resBal ← tokenBalance w.led a.poolReserves.key
  let accBal ← tokenBalance w.led a.protocolFeeAccumulator.key
  require (¬ (s.solValue ≠ 0 ∨ resBal ≠ 0 ∨ accBal ≠ 0)) .lstStillHasValue
  let l ← closeToken w.led a.protocolFeeAccumulator.key a.lstTokenProgram.key a.protocolFeeAccumulatorAuth.key
  let l ← closeToken l a.poolReserves.key a.lstTokenProgram.key a.poolState.key
  pure { ctl := { w.ctl with lsts := w.ctl.lsts.eraseIdx i }, led := l }

/-! ### SetSolValueCalculator -/

/-- `SetSolValueCalculatorAccounts`, generated/s_controller_interface/src/instructions.rs. -/
structure SetCalcAccs where
  admin : Acc
  lstMint : Acc
  poolState : Acc
  poolReserves : Acc
  lstStateList : Acc
deriving DecidableEq, Repr

def SetCalcAccs.load : List Acc → R (SetCalcAccs × List Acc)
  | a :: b :: c :: d :: e :: rest => .ok (⟨a, b, c, d, e⟩, rest)
  | _ => .error .notEnoughAccountKeys

/-- `process_set_sol_value_calculator`, processor/set_sol_value_calculator.rs:23-84, with
`SetSolValueCalculatorFreeArgs::resolve`, accounts_resolvers/set_sol_value_calculator.rs:29-100. -/
def processSetSolValueCalculator (cfg : Cfg) (env : Env cfg) (w : World) (accs : List Acc) (i : Nat) :
    R World := do
  let (a, suffix) ← SetCalcAccs.load accs
  require (a.poolState.key = cfg.poolState) .incorrectPoolState
  require (a.lstStateList.key = cfg.lstStateList) .incorrectLstStateList
  let s ← matchLst a.lstMint.key w.ctl.lsts i
  let tp ← mintProgram w.led a.lstMint.key
  let res ← poolReserves cfg s tp
  let p ← getPool w
  checkKeys [(a.admin.key, p.admin), (a.poolState.key, cfg.poolState), (a.poolReserves.key, res),
    (a.lstStateList.key, cfg.lstStateList)]
  checkWritable [a.poolState, a.lstStateList]
  checkSigner [a.admin]
  verifyActive p
  let c ← CalcCpi.ofSuffix a.lstMint.key suffix
  require (w.led.exec c.program = true) .faultySolValueCalculator
  let w := w.setLsts (w.ctl.lsts.set i { s with solValueCalculator := c.program })
  syncUnchecked env 0 w a.poolReserves.key c i

/-! ### SetAdmin -/

/-- `SetAdminAccounts`, generated/s_controller_interface/src/instructions.rs. -/
structure SetAdminAccs where
  currentAdmin : Acc
  newAdmin : Acc
  poolState : Acc
deriving DecidableEq, Repr

def SetAdminAccs.load : List Acc → R SetAdminAccs
  | a :: b :: c :: _ => .ok ⟨a, b, c⟩
  | _ => .error .notEnoughAccountKeys

/-- `process_set_admin`, processor/set_admin.rs:12-37, with `SetAdminFreeArgs::resolve`, accounts_resolvers/set_admin.rs. -/
def processSetAdmin (cfg : Cfg) (w : World) (accs : List Acc) : R World := do
  let a ← SetAdminAccs.load accs
  require (a.poolState.key = cfg.poolState) .incorrectPoolState
  let p ← getPool w
  checkKeys [(a.currentAdmin.key, p.admin), (a.poolState.key, cfg.poolState)]
  checkWritable [a.poolState]
  checkSigner [a.currentAdmin]
  pure (w.setPool { p with admin := a.newAdmin.key })

/-! ### SetProtocolFee -/

/-- `SetProtocolFeeAccounts`, generated/s_controller_interface/src/instructions.rs. -/
structure SetFeeAccs where
  admin : Acc
  poolState : Acc
deriving DecidableEq, Repr

def SetFeeAccs.load : List Acc → R SetFeeAccs
  | a :: b :: _ => .ok ⟨a, b⟩
  | _ => .error .notEnoughAccountKeys

/-- `SetProtocolFeeIxArgs`, generated/s_controller_interface/src/instructions.rs. -/
structure SetProtocolFeeArgs where
  newTradingProtocolFeeBps : Option Nat
  newLpProtocolFeeBps : Option Nat
deriving DecidableEq, Repr

/-- `process_set_protocol_fee`, processor/set_protocol_fee.rs:16-78. -/
def processSetProtocolFee (cfg : Cfg) (w : World) (accs : List Acc) (args : SetProtocolFeeArgs) : R World := do
  let a ← SetFeeAccs.load accs
  require (a.poolState.key = cfg.poolState) .incorrectPoolState
  let p ← getPool w
  checkKeys [(a.admin.key, p.admin), (a.poolState.key, cfg.poolState)]
  checkWritable [a.poolState]
  checkSigner [a.admin]
  verifyActive p
  require (∀ f ∈ args.newLpProtocolFeeBps, f ≤ BPS) .feeTooHigh
  require (∀ f ∈ args.newTradingProtocolFeeBps, f ≤ BPS) .feeTooHigh
  pure (w.setPool { p with
    tradingProtocolFeeBps := args.newTradingProtocolFeeBps.getD p.tradingProtocolFeeBps
    lpProtocolFeeBps := args.newLpProtocolFeeBps.getD p.lpProtocolFeeBps })

/-! ### SetProtocolFeeBeneficiary -/

/-- `SetProtocolFeeBeneficiaryAccounts`, generated/s_controller_interface/src/instructions.rs. -/
structure SetBeneficiaryAccs where
  currentBeneficiary : Acc
  newBeneficiary : Acc
  poolState : Acc
deriving DecidableEq, Repr

def SetBeneficiaryAccs.load : List Acc → R SetBeneficiaryAccs
  | a :: b :: c :: _ => .ok ⟨a, b, c⟩
  | _ => .error .notEnoughAccountKeys

/-- `process_set_protocol_fee_beneficiary`, processor/set_protocol_fee_beneficiary.rs:15-46. -/
def processSetBeneficiary (cfg : Cfg) (w : World) (accs : List Acc) : R World := do
  let a ← SetBeneficiaryAccs.load accs
  require (a.poolState.key = cfg.poolState) .incorrectPoolState
  let p ← getPool w
  checkKeys [(a.currentBeneficiary.key, p.protocolFeeBeneficiary), (a.poolState.key, cfg.poolState)]
  checkWritable [a.poolState]
  checkSigner [a.currentBeneficiary]
  verifyActive p
  pure (w.setPool { p with protocolFeeBeneficiary := a.newBeneficiary.key })

/-! ### SetPricingProgram -/

/-- `SetPricingProgramAccounts`, generated/s_controller_interface/src/instructions.rs. -/
structure SetPricingAccs where
  admin : Acc
  newPricingProgram : Acc
  poolState : Acc
deriving DecidableEq, Repr

def SetPricingAccs.load : List Acc → R SetPricingAccs
  | a :: b :: c :: _ => .ok ⟨a, b, c⟩
  | _ => .error .notEnoughAccountKeys

/-- `process_set_pricing_program`, processor/set_pricing_program.rs:15-54. -/
def processSetPricing (cfg : Cfg) (w : World) (accs : List Acc) : R World := do
  let a ← SetPricingAccs.load accs
  require (a.poolState.key = cfg.poolState) .incorrectPoolState
  let p ← getPool w
  checkKeys [(a.admin.key, p.admin), (a.poolState.key, cfg.poolState)]
  checkWritable [a.poolState]
  checkSigner [a.admin]
  require (w.led.exec a.newPricingProgram.key = true) .faultyPricingProgram
  verifyActive p
  pure (w.setPool { p with pricingProgram := a.newPricingProgram.key })

/-! ### WithdrawProtocolFees -/

/-- `WithdrawProtocolFeesAccounts`, generated/s_controller_interface/src/instructions.rs. -/
structure WithdrawAccs where
  beneficiary : Acc
  withdrawTo : Acc
  protocolFeeAccumulator : Acc
  protocolFeeAccumulatorAuth : Acc
  tokenProgram : Acc
  poolState : Acc
  lstMint : Acc
deriving DecidableEq, Repr

def WithdrawAccs.load : List Acc → R WithdrawAccs
  | a :: b :: c :: d :: e :: f :: g :: _ => .ok ⟨a, b, c, d, e, f, g⟩
  | _ => .error .notEnoughAccountKeys

/-- `process_withdraw_protocol_fees`, processor/withdraw_protocol_fees.rs:21-68, with
`WithdrawProtocolFeesFreeArgs::resolve`, accounts_resolvers/withdraw_protocol_fees.rs:30-60, 93-119. -/
def processWithdraw (cfg : Cfg) (w : World) (accs : List Acc) (amount : Nat) : R World := do
  let a ← WithdrawAccs.load accs
  require (a.poolState.key = cfg.poolState) .incorrectPoolState
  let t ← okOr (w.led.tok a.withdrawTo.key) .invalidAccountData
  let p ← getPool w
  checkKeys [(a.beneficiary.key, p.protocolFeeBeneficiary),
    (a.protocolFeeAccumulator.key, (cfg.findAta cfg.protocolFee t.program t.mint).1),
    (a.protocolFeeAccumulatorAuth.key, cfg.protocolFee), (a.tokenProgram.key, t.program),
    (a.poolState.key, cfg.poolState), (a.lstMint.key, t.mint)]
  checkWritable [a.withdrawTo, a.protocolFeeAccumulator, a.protocolFeeAccumulatorAuth, a.poolState]
  checkSigner [a.beneficiary]
  verifyActive p
  let bal ← tokenBalance w.led a.protocolFeeAccumulator.key
  require (amount ≤ bal) .notEnoughFees
  let l ← transfer w.led ⟨a.protocolFeeAccumulator.key, a.withdrawTo.key, a.tokenProgram.key,
    a.protocolFeeAccumulatorAuth.key, a.lstMint.key⟩ amount
  pure { w with led := l }

/-! ### AddDisablePoolAuthority, RemoveDisablePoolAuthority -/

/-- `AddDisablePoolAuthorityAccounts`, generated/s_controller_interface/src/instructions.rs. -/
structure AddAuthAccs where
  payer : Acc
  admin : Acc
  poolState : Acc
  newAuthority : Acc
  disablePoolAuthorityList : Acc
  systemProgram : Acc
deriving DecidableEq, Repr

def AddAuthAccs.load : List Acc → R AddAuthAccs
  | a :: b :: c :: d :: e :: f :: _ => .ok ⟨a, b, c, d, e, f⟩
  | _ => .error .notEnoughAccountKeys

/-- `process_add_disable_pool_authority`, processor/add_disable_pool_authority.rs:21-83, with
`AddDisablePoolAuthorityFreeArgs::resolve`, accounts_resolvers/add_disable_pool_authority.rs:19-35. -/
def processAddAuth (cfg : Cfg) (w : World) (accs : List Acc) : R World := do
  let a ← AddAuthAccs.load accs
  require (a.poolState.key = cfg.poolState) .incorrectPoolState
  let p ← getPool w
  checkKeys [(a.admin.key, p.admin), (a.poolState.key, cfg.poolState),
    (a.disablePoolAuthorityList.key, cfg.disablePoolAuthorityList), (a.systemProgram.key, cfg.systemProgram)]
  checkWritable [a.payer, a.disablePoolAuthorityList]
  checkSigner [a.payer, a.admin]
  require (a.newAuthority.key ∉ w.ctl.auths) .duplicateDisablePoolAuthority
  pure { w with ctl := { w.ctl with auths := w.ctl.auths ++ [a.newAuthority.key] } }

/-- `RemoveDisablePoolAuthorityAccounts`, generated/s_controller_interface/src/instructions.rs. -/
structure RemoveAuthAccs where
  refundRentTo : Acc
  signer : Acc
  authority : Acc
  poolState : Acc
  disablePoolAuthorityList : Acc
deriving DecidableEq, Repr

def RemoveAuthAccs.load : List Acc → R RemoveAuthAccs
  | a :: b :: c :: d :: e :: _ => .ok ⟨a, b, c, d, e⟩
  | _ => .error .notEnoughAccountKeys

/-- `process_remove_disable_pool_authority`, processor/remove_disable_pool_authority.rs:20-70, with
`RemoveDisablePoolAuthorityFreeArgs::resolve`, accounts_resolvers/remove_disable_pool_authority.rs:29-51. -/
def processRemoveAuth (cfg : Cfg) (w : World) (accs : List Acc) (i : Nat) : R World := do
  let a ← RemoveAuthAccs.load accs
  require (a.poolState.key = cfg.poolState) .incorrectPoolState
  require (a.disablePoolAuthorityList.key = cfg.disablePoolAuthorityList) .incorrectDisablePoolAuthorityList
  let au ← okOr w.ctl.auths[i]? .invalidDisablePoolAuthorityIndex
  checkKeys [(a.authority.key, au), (a.poolState.key, cfg.poolState),
    (a.disablePoolAuthorityList.key, cfg.disablePoolAuthorityList)]
  checkWritable [a.refundRentTo, a.disablePoolAuthorityList]
  checkSigner [a.signer]
  let p ← getPool w
  verifyAdminOrAuth a.signer.key p w.ctl.auths
  require (a.signer.key = p.admin ∨ a.signer.key = a.authority.key) .unauthorizedDisablePoolAuthoritySigner
  pure { w with ctl := { w.ctl with auths := w.ctl.auths.eraseIdx i } }

/-! ### DisablePool, EnablePool -/

/-- `DisablePoolAccounts`, generated/s_controller_interface/src/instructions.rs. -/
structure DisablePoolAccs where
  signer : Acc
  poolState : Acc
  disablePoolAuthorityList : Acc
deriving DecidableEq, Repr

def DisablePoolAccs.load : List Acc → R DisablePoolAccs
  | a :: b :: c :: _ => .ok ⟨a, b, c⟩
  | _ => .error .notEnoughAccountKeys

/-- `process_disable_pool`, processor/disable_pool.rs:16-57. -/
def processDisablePool (cfg : Cfg) (w : World) (accs : List Acc) : R World := do
  let a ← DisablePoolAccs.load accs
  checkKeys [(a.poolState.key, cfg.poolState), (a.disablePoolAuthorityList.key, cfg.disablePoolAuthorityList)]
  checkWritable [a.poolState]
  checkSigner [a.signer]
  let p ← getPool w
  verifyActive p
  verifyAdminOrAuth a.signer.key p w.ctl.auths
  pure (w.setPool { p with isDisabled := 1 })

/-- `EnablePoolAccounts`, generated/s_controller_interface/src/instructions.rs. -/
structure EnablePoolAccs where
  admin : Acc
  poolState : Acc
deriving DecidableEq, Repr

def EnablePoolAccs.load : List Acc → R EnablePoolAccs
  | a :: b :: _ => .ok ⟨a, b⟩
  | _ => .error .notEnoughAccountKeys

/-- `process_enable_pool`, processor/enable_pool.rs:13-48. -/
def processEnablePool (cfg : Cfg) (w : World) (accs : List Acc) : R World := do
  let a ← EnablePoolAccs.load accs
  require (a.poolState.key = cfg.poolState) .incorrectPoolState
  let p ← getPool w
  checkKeys [(a.admin.key, p.admin), (a.poolState.key, cfg.poolState)]
  checkWritable [a.poolState]
  checkSigner [a.admin]
  require (isTrue p.isDisabled) .poolEnabled
  pure (w.setPool { p with isDisabled := 0 })

/-! ### SetRebalanceAuthority -/

/-- `SetRebalanceAuthorityAccounts`, generated/s_controller_interface/src/instructions.rs. -/
structure SetRebAuthAccs where
  signer : Acc
  newRebalanceAuthority : Acc
  poolState : Acc
deriving DecidableEq, Repr

def SetRebAuthAccs.load : List Acc → R SetRebAuthAccs
  | a :: b :: c :: _ => .ok ⟨a, b, c⟩
  | _ => .error .notEnoughAccountKeys

/-- `process_set_rebalance_authority`, processor/set_rebalance_authority.rs:15-53. -/
def processSetRebAuth (cfg : Cfg) (w : World) (accs : List Acc) : R World := do
  let a ← SetRebAuthAccs.load accs
  checkKeys [(a.poolState.key, cfg.poolState)]
  checkWritable [a.poolState]
  checkSigner [a.signer]
  let p ← getPool w
  verifyActive p
  require (a.signer.key = p.admin ∨ a.signer.key = p.rebalanceAuthority)
    .unauthorizedSetRebalanceAuthoritySigner
  pure (w.setPool { p with rebalanceAuthority := a.newRebalanceAuthority.key })

/-! ### Initialize -/

/-- `InitializeAccounts`, generated/s_controller_interface/src/instructions.rs. -/
structure InitializeAccs where
  payer : Acc
  authority : Acc
  poolState : Acc
  lpTokenMint : Acc
  lpTokenProgram : Acc
  systemProgram : Acc
deriving DecidableEq, Repr

def InitializeAccs.load : List Acc → R InitializeAccs
  | a :: b :: c :: d :: e :: f :: _ => .ok ⟨a, b, c, d, e, f⟩
  | _ => .error .notEnoughAccountKeys

/-- `DEFAULT_TRADING_PROTOCOL_FEE_BPS`, `DEFAULT_LP_PROTOCOL_FEE_BPS`, `CURRENT_PROGRAM_VERS`,
libs/s-controller-lib/src/consts.rs:11-17. -/
abbrev defaultTradingFeeBps : Nat := 1000
abbrev defaultLpFeeBps : Nat := 1000
abbrev currentProgramVers : Nat := 1

/-- `process_initialize`, processor/initialize.rs:24-115, with `InitializeFreeArgs::resolve`,
accounts_resolvers/initialize.rs:18-32. Creating the pool state account fails if it already exists. -/
def processInitialize (cfg : Cfg) (w : World) (accs : List Acc) : R World := do
  let a ← InitializeAccs.load accs
  checkKeys [(a.authority.key, cfg.initialAuthority), (a.poolState.key, cfg.poolState),
    (a.lpTokenProgram.key, cfg.splToken), (a.systemProgram.key, cfg.systemProgram)]
  checkWritable [a.payer, a.poolState, a.lpTokenMint]
  checkSigner [a.payer, a.authority]
  let m ← okOr (w.led.mints a.lpTokenMint.key) .incorrectLpMintInitialization
  require (m.program = cfg.splToken) .incorrectLpMintInitialization
  require (m.supply = 0) .incorrectLpMintInitialization
  require (m.decimals = 9) .incorrectLpMintInitialization
  require (w.ctl.pool = none) .system
  let l ← setMintAuth w.led a.lpTokenMint.key a.lpTokenProgram.key a.authority.key a.poolState.key
  let l ← setFreezeAuth l a.lpTokenMint.key a.lpTokenProgram.key a.authority.key a.poolState.key
  pure { ctl := { w.ctl with pool := some {
            totalSolValue := 0
            tradingProtocolFeeBps := defaultTradingFeeBps
            lpProtocolFeeBps := defaultLpFeeBps
            version := currentProgramVers
            isDisabled := 0
            isRebalancing := 0
            admin := a.authority.key
            rebalanceAuthority := a.authority.key
            protocolFeeBeneficiary := a.authority.key
            pricingProgram := cfg.flatFeeProgram
            lpTokenMint := a.lpTokenMint.key } }
         led := l }

end S
