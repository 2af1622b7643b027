import Verif.History
import Verif.Serde
/-
Lamports: who pays for the controller's accounts and who gets the rent back. The movements of lamports run beside the model of the controller's
instructions; an instruction additionally fails if one of them does.
-/
set_option autoImplicit false
namespace S

/-- The lamports of every account. -/
abbrev Lam : Type := Pubkey → Nat

/-- The rent sysvar, taken to be constant: the least balance of a rent-exempt account by data length (`Rent::minimum_balance`), and that of a token account
of a token program and mint (its length depends on Token-2022 extensions). -/
structure Rent where
  min : Nat → Nat
  mono : ∀ {a b : Nat}, a ≤ b → min a ≤ min b
  token : Pubkey → Pubkey → Nat

/-- `system_program::transfer` and `sanctum_system_program_lib::transfer_direct_increment`. There are fewer than 2^64 lamports in all, so the receiver's
balance fits. (To oneself: no change, or rejected by the runtime for creating lamports; the first is modelled.) -/
def pay (lam : Lam) (src dst : Pubkey) (n : Nat) : R Lam := do
  require (n ≤ lam src) .system
  if src = dst then pure lam else pure (upd (upd lam src (lam src - n)) dst (lam dst + n))

/-- `sanctum_system_program_lib::close_account`. -/
def closeLam (lam : Lam) (close refund : Pubkey) : R Lam := pay lam close refund (lam close)

/-- The payer brings `acc` up to `need` lamports if it is short of them: `init_rent_exempt_account_invoke_signed` (processor/initialize.rs:27-37), the
associated token program's `create`, and `extend_list_pda` (list_account.rs:37-49). -/
def topUp (lam : Lam) (payer acc : Pubkey) (need : Nat) : R Lam :=
  if 0 < need - lam acc then pay lam payer acc (need - lam acc) else .ok lam

/-- `create_ata_if_not_exist`, processor/add_lst.rs:81-87. -/
def topUpAta (r : Rent) (l : Ledger) (lam : Lam) (payer acc tokenProgram mint : Pubkey) : R Lam :=
  if l.tok acc = none then topUp lam payer acc (r.token tokenProgram mint) else .ok lam

/-- `CloseAccount` of the token programs, which refuse to refund an account to itself. -/
def closeTokenLam (lam : Lam) (close refund : Pubkey) : R Lam := do
  require (close ≠ refund) .token
  closeLam lam close refund

/-- The end of `remove_from_list_pda`, list_account.rs:94-111; `len` is the account's length after the removal. -/
def shrinkLam (r : Rent) (lam : Lam) (list refund : Pubkey) (len : Nat) : R Lam :=
  if len = 0 then closeLam lam list refund
  else if 0 < lam list - r.min len then pay lam list refund (lam list - r.min len) else .ok lam

/-- The lamports that the controller moves in an instruction accepted in state `w`, in the order of its code: processor/initialize.rs:27-37,
add_lst.rs:33-59, remove_lst.rs:26-56, add_disable_pool_authority.rs:24-33, remove_disable_pool_authority.rs:26-32, start_rebalance.rs:102-108 (one lamport,
which keeps the record alive) and end_rebalance.rs:52-55. The other instructions move none. -/
def lamIx (r : Rent) (w : World) (accs : List Acc) (lam : Lam) : Ix → R Lam
  | .initialize => do
    let a ← InitializeAccs.load accs
    topUp lam a.payer.key a.poolState.key (r.min POOL_STATE_SIZE)
  | .addLst => do
    let a ← AddLstAccs.load accs
    let lam ← topUpAta r w.led lam a.payer.key a.poolReserves.key a.lstTokenProgram.key a.lstMint.key
    let lam ← topUpAta r w.led lam a.payer.key a.protocolFeeAccumulator.key a.lstTokenProgram.key a.lstMint.key
    topUp lam a.payer.key a.lstStateList.key (r.min ((w.ctl.lsts.length + 1) * LST_STATE_SIZE))
  | .removeLst _ => do
    let a ← RemoveLstAccs.load accs
    let lam ← closeTokenLam lam a.protocolFeeAccumulator.key a.refundRentTo.key
    let lam ← closeTokenLam lam a.poolReserves.key a.refundRentTo.key
    shrinkLam r lam a.lstStateList.key a.refundRentTo.key ((w.ctl.lsts.length - 1) * LST_STATE_SIZE)
  | .addDisablePoolAuthority => do
    let a ← AddAuthAccs.load accs
    topUp lam a.payer.key a.disablePoolAuthorityList.key (r.min ((w.ctl.auths.length + 1) * 32))
  | .removeDisablePoolAuthority _ => do
    let a ← RemoveAuthAccs.load accs
    shrinkLam r lam a.disablePoolAuthorityList.key a.refundRentTo.key ((w.ctl.auths.length - 1) * 32)
  | .startRebalance _ => do
    let (a, _) ← StartRebAccs.load accs
    pay lam a.poolState.key a.rebalanceRecord.key 1
  | .endRebalance => do
    let (a, _) ← EndRebAccs.load accs
    closeLam lam a.rebalanceRecord.key a.poolState.key
  | _ => .ok lam

/-- The accounts the controller owns. -/
def Cfg.owned (cfg : Cfg) : List Pubkey := [cfg.poolState, cfg.lstStateList, cfg.disablePoolAuthorityList, cfg.rebalanceRecord]

/-- Runtime rule: only the controller can take lamports from its accounts (and only it can sign for them before it owns them). -/
def Credits (cfg : Cfg) (lam lam' : Lam) : Prop := ∀ k ∈ cfg.owned, lam k ≤ lam' k

/-- The lamports along the committed events of a history: foreign programs, also those called by the controller, do what they like except taking lamports from
the controller's accounts; an instruction of the controller moves its lamports last, after all its calls of other programs. The controller's accounts are
no payers: they cannot sign, and the system program does not take lamports from accounts of other programs. -/
inductive LamRun {cfg : Cfg} (r : Rent) : List (Event cfg) → Lam → Lam → Prop
  | nil (lam : Lam) : LamRun r [] lam lam
  | ext {e : Event cfg} {es : List (Event cfg)} {f : Ledger → Ledger} {ok : ∀ l : Ledger, l.ExtOk cfg (f l)} {lam lam1 lam' : Lam} (he : e.act = .ext f ok)
      (h1 : Credits cfg lam lam1) (h : LamRun r es lam1 lam') : LamRun r (e :: es) lam lam'
  | call {e : Event cfg} {es : List (Event cfg)} {c : Call cfg} {ix : Ix} {lam lam1 lam2 lam' : Lam} (he : e.act = .call c) (hd : decodeIx c.data = .ok ix)
      (hs : ∀ a ∈ c.accs, a.signer = true → a.key ∉ cfg.owned) (h1 : Credits cfg lam lam1) (hm : lamIx r e.pre c.accs lam1 ix = .ok lam2)
      (h : LamRun r es lam2 lam') : LamRun r (e :: es) lam lam'

end S
