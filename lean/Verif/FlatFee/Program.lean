import Verif.FlatFee.Calc
import Verif.IxData
/-
Model of the flat-fee pricing program: `programs/pricing-programs/flat-fee/src/{entrypoint.rs,processor/*.rs}` with the account
resolvers and PDAs of `libs/pricing-programs/flat-fee-lib/src/{account_resolvers/*.rs,pda.rs,utils.rs,lib.rs}`, and of the no-fee pricing
program, `programs/pricing-programs/no-fee-pricing-program/src/lib.rs`.
-/
set_option autoImplicit false
namespace S

/-- Addresses of the flat-fee program, libs/pricing-programs/flat-fee-lib/src/{lib.rs:22-41,pda.rs:36-81}. -/
structure FlatCfg where
  programId : Pubkey
  stateId : Pubkey
  initialManager : Pubkey
  systemProgram : Pubkey
  splToken : Pubkey
  token22 : Pubkey
  /-- `FeeAccountCreatePdaArgs::get_fee_account_address`: mint and bump. -/
  feeAddr : Pubkey → Nat → Option Pubkey
  /-- `FeeAccountFindPdaArgs::get_fee_account_address_and_bump_seed`: mint. -/
  findFee : Pubkey → Pubkey × Nat
  findFee_addr : ∀ m, feeAddr m (findFee m).2 = some (findFee m).1
  findFee_u8 : ∀ m, (findFee m).2 < 256
  /-- Collision resistance of address derivation. -/
  feeAddr_inj : ∀ {m b m' b' k}, feeAddr m b = some k → feeAddr m' b' = some k → m = m'

/-- `ProgramState`, generated/pricing-programs/flat_fee_interface/src/typedefs.rs (34 bytes). -/
structure FlatState where
  manager : Pubkey
  lpWithdrawalFeeBps : Nat
deriving DecidableEq, Repr

/-- `FeeAccount`, generated/pricing-programs/flat_fee_interface/src/typedefs.rs (6 bytes; padding omitted). -/
structure FeeAccount where
  bump : Nat
  inputFeeBps : Int
  outputFeeBps : Int
deriving DecidableEq, Repr

/-- The accounts owned by the flat-fee program: its state account and its 6-byte fee accounts. -/
structure FlatFee where
  state : Option FlatState
  fees : Pubkey → Option FeeAccount

def FlatFee.empty : FlatFee := ⟨none, fun _ => none⟩

/-- What else an execution can read: accounts of other programs whose data happens to be a 6-byte fee account (only the
flat-fee program can own accounts at its own PDAs), and mints. -/
structure FlatView (fc : FlatCfg) where
  foreign : Pubkey → Option FeeAccount
  mints : Pubkey → Option Mint
  pda : ∀ {m b k}, fc.feeAddr m b = some k → foreign k = none

/-- `try_fee_account` on the data of the account at `k`, libs/pricing-programs/flat-fee-lib/src/utils.rs:15-17. -/
def readFee {fc : FlatCfg} (v : FlatView fc) (F : FlatFee) (k : Pubkey) : R FeeAccount :=
  okOr ((F.fees k).or (v.foreign k)) .unsupportedLstMint

/-- The check of the state account's address and `try_program_state`, e.g. account_resolvers/set_manager.rs:37-43. -/
def readState (fc : FlatCfg) (F : FlatFee) (state : Acc) : R FlatState := do
  require (state.key = fc.stateId) .incorrectProgramState
  okOr F.state .invalidProgramStateData

/-- `FlatFeeProgramIx`, generated/pricing-programs/flat_fee_interface/src/instructions.rs:11-23. -/
inductive FlatIx
  | priceExactIn (amount solValue : Nat)
  | priceExactOut (amount solValue : Nat)
  | priceLpTokensToMint (amount solValue : Nat)
  | priceLpTokensToRedeem (amount solValue : Nat)
  | setLpWithdrawalFee (bps : Nat)
  | setLstFee (inputFeeBps outputFeeBps : Int)
  | removeLst
  | addLst (inputFeeBps outputFeeBps : Int)
  | setManager
  | initialize
deriving DecidableEq, Repr

/-- Two's complement value of 16 bits. -/
def i16OfNat (n : Nat) : Int := if n < 32768 then n else (n : Int) - 65536

/-- Two's complement bits of an `i16`. -/
def natOfI16 (x : Int) : Nat := (x % 65536).toNat

/-- `FlatFeeProgramIx::serialize`, generated/pricing-programs/flat_fee_interface/src/instructions.rs:57-104. -/
def FlatIx.encode : FlatIx → List UInt8
  | .priceExactIn a v => 0 :: (toLE 8 a ++ toLE 8 v)
  | .priceExactOut a v => 1 :: (toLE 8 a ++ toLE 8 v)
  | .priceLpTokensToMint a v => 2 :: (toLE 8 a ++ toLE 8 v)
  | .priceLpTokensToRedeem a v => 3 :: (toLE 8 a ++ toLE 8 v)
  | .setLpWithdrawalFee b => 250 :: toLE 2 b
  | .setLstFee i o => 251 :: (toLE 2 (natOfI16 i) ++ toLE 2 (natOfI16 o))
  | .removeLst => [252]
  | .addLst i o => 253 :: (toLE 2 (natOfI16 i) ++ toLE 2 (natOfI16 o))
  | .setManager => [254]
  | .initialize => [255]

/-- Two integers of `k` bytes. -/
def readTwo (k : Nat) (r : List UInt8) : R (Nat × Nat) := do
  let (a, r) ← readLE k r
  let (b, _) ← readLE k r
  pure (a, b)

/-- `FlatFeeProgramIx::deserialize`, generated/pricing-programs/flat_fee_interface/src/instructions.rs:25-56. -/
def decodeFlatIx (buf : List UInt8) : R FlatIx :=
  match buf with
  | [] => .error .decode
  | d :: r =>
    match d.toNat with
    | 0 => do let (a, v) ← readTwo 8 r; pure (.priceExactIn a v)
    | 1 => do let (a, v) ← readTwo 8 r; pure (.priceExactOut a v)
    | 2 => do let (a, v) ← readTwo 8 r; pure (.priceLpTokensToMint a v)
    | 3 => do let (a, v) ← readTwo 8 r; pure (.priceLpTokensToRedeem a v)
    | 250 => do let (b, _) ← readLE 2 r; pure (.setLpWithdrawalFee b)
    | 251 => do let (i, o) ← readTwo 2 r; pure (.setLstFee (i16OfNat i) (i16OfNat o))
    | 252 => pure .removeLst
    | 253 => do let (i, o) ← readTwo 2 r; pure (.addLst (i16OfNat i) (i16OfNat o))
    | 254 => pure .setManager
    | 255 => pure .initialize
    | _ => .error .decode

/-- Accounts of PriceExactIn / PriceExactOut: input_lst_mint, output_lst_mint, input_fee_acc, output_fee_acc; checked by
`verify_price_exact_in`, processor/price_exact_in.rs:43-67, `verify_price_exact_out`, processor/price_exact_out.rs:44-68 and
`PriceExact{In,Out}WithBumpFreeArgs::resolve`. Returns the two fee accounts. -/
def verifyPriceSwap {fc : FlatCfg} (v : FlatView fc) (F : FlatFee) : List Acc → R (FeeAccount × FeeAccount)
  | inMint :: outMint :: inFee :: outFee :: _ => do
    let i ← readFee v F inFee.key
    let o ← readFee v F outFee.key
    let ki ← okOr (fc.feeAddr inMint.key i.bump) .invalidArgument
    let ko ← okOr (fc.feeAddr outMint.key o.bump) .invalidArgument
    checkKeys [(inFee.key, ki), (outFee.key, ko)]
    pure (i, o)
  | _ => .error .notEnoughAccountKeys

/-- `process_price_exact_in`, processor/price_exact_in.rs:16-41. -/
def flatExactIn (L : RatioLib) {fc : FlatCfg} (v : FlatView fc) (F : FlatFee) (accs : List Acc) (solValue : Nat) : R Nat := do
  let (i, o) ← verifyPriceSwap v F accs
  flatPriceExactIn L i.inputFeeBps o.outputFeeBps solValue

/-- `process_price_exact_out`, processor/price_exact_out.rs:17-42. -/
def flatExactOut (L : RatioLib) {fc : FlatCfg} (v : FlatView fc) (F : FlatFee) (accs : List Acc) (solValue : Nat) : R Nat := do
  let (i, o) ← verifyPriceSwap v F accs
  flatPriceExactOut L i.inputFeeBps o.outputFeeBps solValue

/-- `process_price_lp_tokens_to_redeem`, processor/price_lp_tokens_to_redeem.rs:15-48. Accounts: output_lst_mint, state. -/
def flatRedeem (fc : FlatCfg) (F : FlatFee) (accs : List Acc) (solValue : Nat) : R Nat :=
  match accs with
  | _ :: state :: _ => do
    checkKeys [(state.key, fc.stateId)]
    let s ← okOr F.state .invalidProgramStateData
    flatPriceRedeem s.lpWithdrawalFeeBps solValue
  | _ => .error .notEnoughAccountKeys

/-- `process_set_lp_withdrawal_fee`, processor/set_lp_withdrawal_fee.rs:15-54. Accounts: manager, state. -/
def flatSetLpFee (fc : FlatCfg) (F : FlatFee) (accs : List Acc) (bps : Nat) : R FlatFee :=
  match accs with
  | manager :: state :: _ => do
    let s ← readState fc F state
    checkKeys [(manager.key, s.manager), (state.key, fc.stateId)]
    checkWritable [state]
    checkSigner [manager]
    verifyUnsignedFee bps
    pure { F with state := some { s with lpWithdrawalFeeBps := bps } }
  | _ => .error .notEnoughAccountKeys

/-- `process_set_lst_fee`, processor/set_lst_fee.rs:16-56. Accounts: manager, fee_acc, state. The address of the fee account is not
checked; a fee account of another program cannot be written (the runtime fails the instruction if its data changed). -/
def flatSetLstFee {fc : FlatCfg} (v : FlatView fc) (F : FlatFee) (accs : List Acc) (i o : Int) : R FlatFee :=
  match accs with
  | manager :: feeAcc :: state :: _ => do
    let s ← readState fc F state
    checkKeys [(manager.key, s.manager), (state.key, fc.stateId)]
    checkWritable [feeAcc]
    checkSigner [manager]
    verifySignedFee i
    verifySignedFee o
    let a ← readFee v F feeAcc.key
    match F.fees feeAcc.key with
    | some f => pure { F with fees := upd F.fees feeAcc.key (some { f with inputFeeBps := i, outputFeeBps := o }) }
    | none => do
      require (a.inputFeeBps = i ∧ a.outputFeeBps = o) .system
      pure F
  | _ => .error .notEnoughAccountKeys

/-- `process_remove_lst`, processor/remove_lst.rs:14-51. Accounts: manager, refund_rent_to, fee_acc, lst_mint, state. (Closing an
account that does not exist has no effect; its lamports: ProgLamports.lean.) -/
def flatRemoveLst (fc : FlatCfg) (F : FlatFee) (accs : List Acc) : R FlatFee :=
  match accs with
  | manager :: refund :: feeAcc :: mint :: state :: _ => do
    let s ← readState fc F state
    checkKeys [(manager.key, s.manager), (feeAcc.key, (fc.findFee mint.key).1), (state.key, fc.stateId)]
    checkWritable [refund, feeAcc]
    checkSigner [manager]
    pure { F with fees := upd F.fees feeAcc.key none }
  | _ => .error .notEnoughAccountKeys

/-- `verify_tokenkeg_or_22_mint`, libs/sanctum-s-common/src/token.rs:7-16. (Owner check and initialized mint; an account that is
neither is an error either way.) -/
def verifyMint {fc : FlatCfg} (v : FlatView fc) (k : Pubkey) : R Unit := do
  let m ← okOr (v.mints k) .invalidAccountData
  require (m.program = fc.splToken ∨ m.program = fc.token22) .illegalOwner

/-- `process_add_lst`, processor/add_lst.rs:22-87. Accounts: manager, payer, fee_acc, lst_mint, state, system_program. Creating an
account that already exists fails. -/
def flatAddLst {fc : FlatCfg} (v : FlatView fc) (F : FlatFee) (accs : List Acc) (i o : Int) : R FlatFee :=
  match accs with
  | manager :: payer :: feeAcc :: mint :: state :: sys :: _ => do
    let s ← readState fc F state
    checkKeys [(manager.key, s.manager), (feeAcc.key, (fc.findFee mint.key).1), (state.key, fc.stateId), (sys.key, fc.systemProgram)]
    checkWritable [payer, feeAcc]
    checkSigner [manager, payer]
    verifyMint v mint.key
    verifySignedFee i
    verifySignedFee o
    require (F.fees feeAcc.key = none) .system
    pure { F with fees := upd F.fees feeAcc.key (some ⟨(fc.findFee mint.key).2, i, o⟩) }
  | _ => .error .notEnoughAccountKeys

/-- `process_set_manager`, processor/set_manager.rs:14-49. Accounts: current_manager, new_manager, state. -/
def flatSetManager (fc : FlatCfg) (F : FlatFee) (accs : List Acc) : R FlatFee :=
  match accs with
  | current :: new :: state :: _ => do
    let s ← readState fc F state
    checkKeys [(current.key, s.manager), (state.key, fc.stateId)]
    checkWritable [state]
    checkSigner [current]
    pure { F with state := some { s with manager := new.key } }
  | _ => .error .notEnoughAccountKeys

/-- `process_initialize`, processor/initialize.rs:21-60. Accounts: payer, state, system_program. Creating an account that already
exists fails. `INITIAL_LP_WITHDRAWAL_FEE_BPS` is 5. -/
def flatInitialize (fc : FlatCfg) (F : FlatFee) (accs : List Acc) : R FlatFee :=
  match accs with
  | payer :: state :: sys :: _ => do
    checkKeys [(state.key, fc.stateId), (sys.key, fc.systemProgram)]
    checkWritable [payer, state]
    checkSigner [payer]
    require (F.state = none) .system
    pure { F with state := some ⟨fc.initialManager, 5⟩ }
  | _ => .error .notEnoughAccountKeys

/-- `process_instruction` after decoding, programs/pricing-programs/flat-fee/src/entrypoint.rs:26-45: the program's accounts afterwards and
the value set as return data. (PriceLpTokensToMint ignores its accounts: processor/price_lp_tokens_to_mint.rs:8-15.) -/
def flatProcess (L : RatioLib) {fc : FlatCfg} (v : FlatView fc) (F : FlatFee) (accs : List Acc) : FlatIx → R (FlatFee × Option Nat)
  | .priceExactIn _ x => do let r ← flatExactIn L v F accs x; pure (F, some r)
  | .priceExactOut _ x => do let r ← flatExactOut L v F accs x; pure (F, some r)
  | .priceLpTokensToMint _ x => pure (F, some x)
  | .priceLpTokensToRedeem _ x => do let r ← flatRedeem fc F accs x; pure (F, some r)
  | .setLpWithdrawalFee b => do let F ← flatSetLpFee fc F accs b; pure (F, none)
  | .setLstFee i o => do let F ← flatSetLstFee v F accs i o; pure (F, none)
  | .removeLst => do let F ← flatRemoveLst fc F accs; pure (F, none)
  | .addLst i o => do let F ← flatAddLst v F accs i o; pure (F, none)
  | .setManager => do let F ← flatSetManager fc F accs; pure (F, none)
  | .initialize => do let F ← flatInitialize fc F accs; pure (F, none)

/-- `process_instruction`, programs/pricing-programs/flat-fee/src/entrypoint.rs:12-46. -/
def flatInstruction (L : RatioLib) {fc : FlatCfg} (v : FlatView fc) (F : FlatFee) (programId : Pubkey) (accs : List Acc) (data : List UInt8) :
    R (FlatFee × Option Nat) := do
  require (programId = fc.programId) .incorrectProgramId
  let ix ← decodeFlatIx data
  flatProcess L v F accs ix

/-- The no-fee pricing program, programs/pricing-programs/no-fee-pricing-program/src/lib.rs:15-40, with
`PricingProgramsProgramIx::deserialize`, generated/pricing-programs/pricing_programs_interface/src/instructions.rs: the value set as
return data. -/
def noFeeInstruction (data : List UInt8) : R Nat :=
  match data with
  | [] => .error .decode
  | d :: r => if d.toNat ≤ 3 then do let (_, v) ← readTwo 8 r; pure v else .error .decode

/-- The instruction data the controller sends to a pricing program: `PriceExactInIxData` etc.,
generated/pricing-programs/pricing_programs_interface/src/instructions.rs, built in programs/s-controller/src/cpi/pricing_program.rs:89-109, 198-218. -/
def PriceReq.encode : PriceReq → List UInt8
  | .exactIn a v => 0 :: (toLE 8 a ++ toLE 8 v)
  | .exactOut a v => 1 :: (toLE 8 a ++ toLE 8 v)
  | .lpTokensToMint a v => 2 :: (toLE 8 a ++ toLE 8 v)
  | .lpTokensToRedeem a v => 3 :: (toLE 8 a ++ toLE 8 v)

/-- One executed instruction of a flat-fee history. -/
structure FlatCall (fc : FlatCfg) where
  view : FlatView fc
  accs : List Acc
  data : List UInt8

/-- The program's accounts after an instruction; a failed one changes nothing. -/
def FlatCall.apply (L : RatioLib) {fc : FlatCfg} (F : FlatFee) (c : FlatCall fc) : FlatFee :=
  match flatInstruction L c.view F fc.programId c.accs c.data with
  | .ok (F', _) => F'
  | .error _ => F

/-- The program's accounts after a history of instructions, starting from deployment. (Instructions of transactions that fail
as a whole leave no trace and are not part of the history.) -/
def flatHistory (L : RatioLib) {fc : FlatCfg} (cs : List (FlatCall fc)) : FlatFee := cs.foldl (FlatCall.apply L) .empty

end S
