import Verif.Client
/-
The administrative commands of the S controller's command-line tool: cli/s-controller/src/subcmd (all but the rebalancing commands and `sync-all`, which are
in `Verif.Cli`, `sync`, which only sends `syncByMint`, and `view`, which only prints), with the account resolvers of
libs/s-controller-lib/src/accounts_resolvers and the account metas of generated/s_controller_interface/src/instructions.rs.
`w` is the chain as fetched; `signer` is the key given as the admin, authority or beneficiary (the payer's by default). Parsing of the arguments,
compute-budget instructions, fee estimation and sending are not modelled. Only the default program id is modelled (as for the other client code). A missing
account and a wrong key end the command (`Err.panic`).
-/
set_option autoImplicit false
namespace S

/-- `fetch_pool_state` and `try_pool_state`, cli/s-controller/src/rpc.rs. -/
def fetchPool (w : World) : R PoolState := okOr w.ctl.pool .panic

/-- The fetched pool state after `verify_admin`, cli/s-controller/src/common.rs:21-27. -/
def fetchAdmin (w : World) (signer : Pubkey) : R PoolState := do
  let p ← fetchPool w
  require (p.admin = signer) .panic
  pure p

/-- The fetched pool state after the check that the signer is the admin or a disable-pool authority (`verify_disable_pool_authority`,
cli/s-controller/src/common.rs:29-38), subcmd/disable_pool.rs:46-57, subcmd/remove_disable_auth.rs:79-87. -/
def fetchAdminOrAuth (w : World) (signer : Pubkey) : R PoolState := do
  let p ← fetchPool w
  require (p.admin = signer ∨ signer ∈ w.ctl.auths) .panic
  pure p

namespace AdminCli

/-- `SetAdminArgs::run`, subcmd/set_admin.rs:33-78, with accounts_resolvers/set_admin.rs:14-42 and instructions.rs:3162-3181. -/
def setAdmin (cfg : Cfg) (w : World) (signer new : Pubkey) : R TopIx := do
  let p ← fetchAdmin w signer
  pure ⟨cfg.programId, [sgMeta p.admin, roMeta new, wrMeta cfg.poolState], Ix.setAdmin.encode⟩

/-- `SetProtocolFeeArgs::run`, subcmd/set_protocol_fee.rs:46-91, with accounts_resolvers/set_protocol_fee.rs:13-43 and instructions.rs:3346-3360. -/
def setProtocolFee (cfg : Cfg) (w : World) (signer : Pubkey) (args : SetProtocolFeeArgs) : R TopIx := do
  let p ← fetchAdmin w signer
  pure ⟨cfg.programId, [sgMeta p.admin, wrMeta cfg.poolState], (Ix.setProtocolFee args).encode⟩

/-- `SetProtocolFeeBeneficiaryArgs::run`, subcmd/set_protocol_fee_beneficiary.rs:35-76, with `verify_protocol_fee_beneficiary` (common.rs:40-52),
accounts_resolvers/set_protocol_fee_beneficiary.rs:14-47 and instructions.rs:3548-3570. -/
def setBeneficiary (cfg : Cfg) (w : World) (signer new : Pubkey) : R TopIx := do
  let p ← fetchPool w
  require (p.protocolFeeBeneficiary = signer) .panic
  pure ⟨cfg.programId, [sgMeta p.protocolFeeBeneficiary, roMeta new, wrMeta cfg.poolState], Ix.setProtocolFeeBeneficiary.encode⟩

/-- `SetPricingProgArgs::run`, subcmd/set_pricing_prog.rs:32-73, with accounts_resolvers/set_pricing_program.rs:14-42 and instructions.rs:3747-3766. -/
def setPricing (cfg : Cfg) (w : World) (signer new : Pubkey) : R TopIx := do
  let p ← fetchAdmin w signer
  pure ⟨cfg.programId, [sgMeta p.admin, roMeta new, wrMeta cfg.poolState], Ix.setPricingProgram.encode⟩

/-- Which of the two authorities the signer is, subcmd/set_rebalance_auth.rs:44-66. -/
def rebAuthKey (p : PoolState) (signer : Pubkey) : R Pubkey :=
  if p.admin = signer then .ok p.admin else if p.rebalanceAuthority = signer then .ok p.rebalanceAuthority else .error .panic

/-- `SetRebalanceAuthArgs::run`, subcmd/set_rebalance_auth.rs:26-79, with `KnownAuthoritySetRebalanceAuthorityFreeArgs`
(accounts_resolvers/set_rebalance_authority.rs:37-117) and instructions.rs:5675-5694. -/
def setRebAuth (cfg : Cfg) (w : World) (signer new : Pubkey) : R TopIx := do
  let p ← fetchPool w
  let k ← rebAuthKey p signer
  pure ⟨cfg.programId, [sgMeta k, roMeta new, wrMeta cfg.poolState], Ix.setRebalanceAuthority.encode⟩

/-- `EnablePoolArgs::run`, subcmd/enable_pool.rs:23-59, with accounts_resolvers/enable_pool.rs:13-37 and instructions.rs:4905-4919. -/
def enablePool (cfg : Cfg) (w : World) (signer : Pubkey) : R TopIx := do
  let p ← fetchAdmin w signer
  pure ⟨cfg.programId, [sgMeta p.admin, wrMeta cfg.poolState], Ix.enablePool.encode⟩

/-- `DisablePoolArgs::run`, subcmd/disable_pool.rs:32-77, with accounts_resolvers/disable_pool.rs:15-36 and instructions.rs:4716-4735. -/
def disablePool (cfg : Cfg) (w : World) (signer : Pubkey) : R TopIx := do
  let _ ← fetchAdminOrAuth w signer
  pure ⟨cfg.programId, [sgMeta signer, wrMeta cfg.poolState, roMeta cfg.disablePoolAuthorityList], Ix.disablePool.encode⟩

/-- `AddDisableAuthArgs::run`, subcmd/add_disable_auth.rs:38-84, with accounts_resolvers/add_disable_pool_authority.rs:19-52 and
instructions.rs:4236-4273. -/
def addAuth (cfg : Cfg) (w : World) (signer payer new : Pubkey) : R TopIx := do
  let p ← fetchAdmin w signer
  pure ⟨cfg.programId, [⟨payer, true, true⟩, sgMeta p.admin, roMeta cfg.poolState, roMeta new, wrMeta cfg.disablePoolAuthorityList,
    roMeta cfg.systemProgram], Ix.addDisablePoolAuthority.encode⟩

/-- `RemoveDisableAuthArgs::run`, subcmd/remove_disable_auth.rs:49-112. -/
def removeAuth (cfg : Cfg) (w : World) (signer refund removing : Pubkey) : R TopIx := do
  let p ← fetchAdminOrAuth w signer
  require (p.admin = signer ∨ signer = removing) .panic
  removeAuthByPubkey cfg w.ctl.auths refund signer removing

/-- `DisableLstInputArgs::run`, subcmd/disable_lst_input.rs:38-89 (`disable = true`) and `EnableLstInputArgs::run`, subcmd/enable_lst_input.rs:34-83. -/
def lstInput (cfg : Cfg) (w : World) (disable : Bool) (signer mint : Pubkey) : R TopIx := do
  let p ← fetchAdmin w signer
  lstInputByMint cfg p w.ctl.lsts disable mint

/-- `AddLstArgs::run`, subcmd/add_lst.rs:42-100, with accounts_resolvers/add_lst.rs:38-112 and instructions.rs:2327-2391. -/
def addLst (cfg : Cfg) (w : World) (signer payer mint calculator : Pubkey) : R TopIx := do
  let m ← okOr (w.led.mints mint) .panic
  let p ← fetchAdmin w signer
  pure ⟨cfg.programId, [sgMeta p.admin, ⟨payer, true, true⟩, roMeta mint, wrMeta (cfg.findAta cfg.poolState m.program mint).1,
    wrMeta (cfg.findAta cfg.protocolFee m.program mint).1, wrMeta cfg.protocolFee, roMeta calculator, roMeta cfg.poolState, wrMeta cfg.lstStateList,
    roMeta cfg.ataProgram, roMeta cfg.systemProgram, roMeta m.program], Ix.addLst.encode⟩

/-- `RemoveLstArgs::run`, subcmd/remove_lst.rs:52-103. It does not check the admin's key: the resolver takes the admin from the pool state. -/
def removeLst (cfg : Cfg) (w : World) (refund mint : Pubkey) : R TopIx := do
  let p ← fetchPool w
  let m ← okOr (w.led.mints mint) .panic
  removeLstByMint cfg p w.ctl.lsts refund ⟨mint, m.program⟩

/-- `SetSolValueCalculatorArgs::run`, subcmd/set_sol_value_calculator.rs:57-126. `suffix` is the list of the calculator's further accounts. -/
def setCalc (cfg : Cfg) (w : World) (signer mint calculator : Pubkey) (suffix : List Pubkey) : R TopIx := do
  let m ← okOr (w.led.mints mint) .panic
  let p ← fetchAdmin w signer
  setCalcByMint cfg p w.ctl.lsts ⟨mint, m.program⟩ ⟨calculator, roMeta mint :: suffix.map roMeta⟩

/-- `WithdrawToAtaStatus`, subcmd/withdraw_protocol_fees.rs:58-62. -/
inductive AtaStatus
  | beneficiary | payer | neither
deriving DecidableEq, Repr

/-- `create_associated_token_account` of the crate `spl-associated-token-account`. -/
def createAtaIx (cfg : Cfg) (payer wallet mint tokenProgram : Pubkey) : TopIx :=
  ⟨cfg.ataProgram, [⟨payer, true, true⟩, wrMeta (cfg.findAta wallet tokenProgram mint).1, roMeta wallet, roMeta mint, roMeta cfg.systemProgram,
    roMeta tokenProgram], [0]⟩

/-- The account to withdraw to and whether it is an associated token account, subcmd/withdraw_protocol_fees.rs:86-118. (`payer_ata` is derived from the
beneficiary's key, as in the code.) -/
def withdrawTarget (cfg : Cfg) (signer mint tokenProgram : Pubkey) (to : Option Pubkey) : Pubkey × AtaStatus :=
  let beneficiaryAta := (cfg.findAta signer tokenProgram mint).1
  let payerAta := (cfg.findAta signer tokenProgram mint).1
  match to with
  | none => (beneficiaryAta, .beneficiary)
  | some k => (k, if k = beneficiaryAta then .beneficiary else if k = payerAta then .payer else .neither)

/-- The account creation preceding the withdrawal, subcmd/withdraw_protocol_fees.rs:138-176. -/
def withdrawCreate (cfg : Cfg) (signer payer mint tokenProgram : Pubkey) : Option TokenAcc → AtaStatus → R (List TopIx)
  | some _, _ => .ok []
  | none, .neither => .error .panic
  | none, .beneficiary => .ok [createAtaIx cfg payer signer mint tokenProgram]
  | none, .payer => .ok [createAtaIx cfg payer payer mint tokenProgram]

/-- `WithdrawProtocolFeesArgs::run`, subcmd/withdraw_protocol_fees.rs:65-207, with accounts_resolvers/withdraw_protocol_fees.rs:93-119 and
instructions.rs:3958-3997. `amount` is in atomics (its conversion from decimals is not modelled). -/
def withdraw (cfg : Cfg) (w : World) (signer payer mint tokenProgram : Pubkey) (to : Option Pubkey) (amount : Option Nat) : R (List TopIx) := do
  let (target, status) := withdrawTarget cfg signer mint tokenProgram to
  let accumulator := (cfg.findAta cfg.protocolFee tokenProgram mint).1
  let p ← fetchPool w
  let acc ← okOr (w.led.tok accumulator) .panic
  require (p.protocolFeeBeneficiary = signer) .panic
  let create ← withdrawCreate cfg signer payer mint tokenProgram (w.led.tok target) status
  let amount := amount.getD acc.amount
  pure (create ++ [⟨cfg.programId, [sgMeta p.protocolFeeBeneficiary, wrMeta target, wrMeta accumulator, wrMeta cfg.protocolFee, roMeta tokenProgram,
    wrMeta cfg.poolState, roMeta mint], (Ix.withdrawProtocolFees amount).encode⟩])

/-- `InitArgs::run`, subcmd/init.rs:35-76, with accounts_resolvers/initialize.rs:34-53 and instructions.rs:5886-5920. -/
def init (cfg : Cfg) (signer payer lpMint : Pubkey) : TopIx :=
  ⟨cfg.programId, [⟨payer, true, true⟩, sgMeta signer, wrMeta cfg.poolState, wrMeta lpMint, roMeta cfg.splToken, roMeta cfg.systemProgram],
    Ix.initialize.encode⟩

end AdminCli
end S
