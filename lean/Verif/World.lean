import Verif.Calc
/-
The on-chain state the controller works on: its own accounts (`Ctl`), the token ledger (`Ledger`), the
addresses it knows (`Cfg`) and the programs it calls (`Env`).
-/
set_option autoImplicit false
namespace S

/-- Public keys. Simplification: an arbitrary natural number instead of 32 bytes (byte level in `Verif.Serde`). -/
abbrev Pubkey := Nat

/-- `solana_program::account_info::AccountInfo`: the address and privileges an account is passed with.
Contents are looked up in `World`. -/
structure Acc where
  key : Pubkey
  signer : Bool
  writable : Bool
deriving DecidableEq, Repr

/-- `PoolState`, generated/s_controller_interface/src/typedefs.rs:7-20 (`#[repr(C)]`, 176 bytes; padding omitted here,
present in `Verif.Serde`). `isDisabled`, `isRebalancing` are bytes read through `U8Bool`. -/
structure PoolState where
  totalSolValue : Nat
  tradingProtocolFeeBps : Nat
  lpProtocolFeeBps : Nat
  version : Nat
  isDisabled : Nat
  isRebalancing : Nat
  admin : Pubkey
  rebalanceAuthority : Pubkey
  protocolFeeBeneficiary : Pubkey
  pricingProgram : Pubkey
  lpTokenMint : Pubkey
deriving DecidableEq, Repr

/-- `LstState`, generated/s_controller_interface/src/typedefs.rs:24-32 (80 bytes; padding omitted here). -/
structure LstState where
  isInputDisabled : Nat
  poolReservesBump : Nat
  protocolFeeAccumulatorBump : Nat
  solValue : Nat
  mint : Pubkey
  solValueCalculator : Pubkey
deriving DecidableEq, Repr

/-- `RebalanceRecord`, generated/s_controller_interface/src/typedefs.rs:36-40 (16 bytes; padding omitted here). -/
structure RebalanceRecord where
  oldTotalSolValue : Nat
  dstLstIndex : Nat
deriving DecidableEq, Repr

/-- `U8Bool::is_true`, libs/s-controller-lib/src/u8bool.rs:8-16. -/
abbrev isTrue (b : Nat) : Prop := b ≠ 0

/-- The controller's own accounts: pool state PDA, LST state list PDA, disable pool authority list PDA,
rebalance record PDA. `none` / `[]` is an account that does not exist (empty data).
Nobody but the controller can change these (Solana account ownership). -/
structure Ctl where
  pool : Option PoolState
  lsts : List LstState
  auths : List Pubkey
  rebal : Option RebalanceRecord
deriving DecidableEq, Repr

/-- A token account: owning token program, mint, authority, balance. Simplification: no delegates, freezes,
multisigs or token-2022 extensions. -/
structure TokenAcc where
  program : Pubkey
  mint : Pubkey
  owner : Pubkey
  amount : Nat
deriving DecidableEq, Repr

/-- A token mint. -/
structure Mint where
  program : Pubkey
  supply : Nat
  decimals : Nat
  mintAuth : Option Pubkey
  freezeAuth : Option Pubkey
deriving DecidableEq, Repr

/-- The part of the rest of the chain that the controller reads or changes: token accounts, mints,
and which accounts are executable programs. -/
structure Ledger where
  tok : Pubkey → Option TokenAcc
  mints : Pubkey → Option Mint
  exec : Pubkey → Bool

/-- The whole state. -/
structure World where
  ctl : Ctl
  led : Ledger

/-- Before `Initialize`: no controller account exists. -/
def Ctl.init : Ctl := ⟨none, [], [], none⟩

/-- Fixed addresses: `libs/s-controller-lib/src/lib.rs` (`program` module), `consts.rs`, `pda.rs:11-113`,
well-known program ids, and the associated-token-account derivation
(`sanctum-associated-token-lib`, i.e. `Pubkey::create_program_address` / `find_program_address`). -/
structure Cfg where
  programId : Pubkey
  poolState : Pubkey
  lstStateList : Pubkey
  disablePoolAuthorityList : Pubkey
  rebalanceRecord : Pubkey
  protocolFee : Pubkey
  initialAuthority : Pubkey
  flatFeeProgram : Pubkey
  splToken : Pubkey
  token22 : Pubkey
  ataProgram : Pubkey
  systemProgram : Pubkey
  instructionsSysvar : Pubkey
  /-- `CreateAtaAddressArgs::create_ata_address`: wallet, token program, mint, bump; `none` if on curve. -/
  ata : Pubkey → Pubkey → Pubkey → Nat → Option Pubkey
  /-- `FindAtaAddressArgs::find_ata_address`: wallet, token program, mint; address and bump. -/
  findAta : Pubkey → Pubkey → Pubkey → Pubkey × Nat
  /-- `find` returns an address `create` gives for the bump found. -/
  findAta_ata : ∀ w p m, ata w p m (findAta w p m).2 = some (findAta w p m).1
  findAta_u8 : ∀ w p m, (findAta w p m).2 < 256
  /-- Collision resistance of SHA-256 address derivation. -/
  ata_inj : ∀ {w p m b w' p' m' b' k}, ata w p m b = some k → ata w' p' m' b' = some k →
    w = w' ∧ p = p' ∧ m = m'
  /-- distinct PDAs / programs -/
  pool_ne_fee : poolState ≠ protocolFee
  spl_ne_22 : splToken ≠ token22

/-- Consistency of the token ledger that the token programs and the associated token program maintain:
balances and supplies are u64, and an account that lives at an associated token address has the mint and token
program that address was derived from (only the ATA program can sign for such an address). -/
structure Ledger.Wf (cfg : Cfg) (l : Ledger) : Prop where
  tok_u64 : ∀ k a, l.tok k = some a → a.amount < U64
  mint_u64 : ∀ k m, l.mints k = some m → m.supply < U64
  ata : ∀ w p m b k a, cfg.ata w p m b = some k → l.tok k = some a → a.mint = m ∧ a.program = p

/-- What programs other than the controller can do to the ledger. Accounts whose authority is one of the
controller's PDAs (pool state, protocol fee) can be credited but not debited, re-assigned or closed, because only the
controller can sign for its PDAs; a mint whose mint authority is the pool can only lose supply (holders burning),
and keeps its authorities; a mint keeps its program and decimals; programs stay programs. -/
structure Ledger.ExtOk (cfg : Cfg) (l l' : Ledger) : Prop where
  wf : l.Wf cfg → l'.Wf cfg
  tok : ∀ k a, l.tok k = some a → a.owner = cfg.poolState ∨ a.owner = cfg.protocolFee →
    ∃ n, a.amount ≤ n ∧ l'.tok k = some { a with amount := n }
  mint : ∀ k m, l.mints k = some m → ∃ m', l'.mints k = some m' ∧ m'.program = m.program ∧
    m'.decimals = m.decimals
  mintAuth : ∀ k m m', l.mints k = some m → l'.mints k = some m' → m.mintAuth = some cfg.poolState →
    m'.mintAuth = some cfg.poolState ∧ m'.supply ≤ m.supply
  freezeAuth : ∀ k m m', l.mints k = some m → l'.mints k = some m' → m.freezeAuth = some cfg.poolState →
    m'.freezeAuth = some cfg.poolState
  exec : ∀ k, l.exec k = true → l'.exec k = true

theorem Ledger.ExtOk.refl (cfg : Cfg) (l : Ledger) : l.ExtOk cfg l where
  wf h := h
  tok k a h _ := ⟨a.amount, Nat.le_refl _, h⟩
  mint k m h := ⟨m, h, rfl, rfl⟩
  mintAuth k m m' h h' ha := by rw [h] at h'; injection h' with h'; subst h'; exact ⟨ha, Nat.le_refl _⟩
  freezeAuth k m m' h h' ha := by rw [h] at h'; injection h' with h'; subst h'; exact ha
  exec _ h := h

/-- A request to a SOL value calculator program
(generated/sol_value_calculator_interface/src/instructions.rs, LstToSol / SolToLst). -/
inductive CalcReq
  | lstToSol (amount : Nat)
  | solToLst (amount : Nat)
deriving DecidableEq, Repr

/-- A request to a pricing program (generated/pricing_programs_interface/src/instructions.rs). -/
inductive PriceReq
  | exactIn (amount solValue : Nat)
  | exactOut (amount solValue : Nat)
  | lpTokensToMint (amount solValue : Nat)
  | lpTokensToRedeem (amount solValue : Nat)
deriving DecidableEq, Repr

/-- The other programs as seen by one execution of a controller instruction: what the n-th call made by that
execution returns and how it changes the ledger. Nothing is assumed about the answers (calculators and pricing
programs may be malicious or inconsistent between calls); ledger changes obey `Ledger.ExtOk`.
A program called by the controller cannot call the controller back (Solana forbids re-entrancy other than direct
self-recursion), so it cannot change `Ctl`. -/
structure Env (cfg : Cfg) where
  askCalc : (call : Nat) → World → (program : Pubkey) → (metas : List Acc) → CalcReq → R (Range × Ledger)
  askPrice : (call : Nat) → World → (program : Pubkey) → (metas : List Acc) → PriceReq → R (Nat × Ledger)
  calc_ext : ∀ {n w p ms q r l}, askCalc n w p ms q = .ok (r, l) → w.led.ExtOk cfg l
  price_ext : ∀ {n w p ms q r l}, askPrice n w p ms q = .ok (r, l) → w.led.ExtOk cfg l

/-! ### Token program effects used by the controller -/

/-- Function update. -/
def upd {α : Type} (f : Pubkey → α) (k : Pubkey) (v : α) : Pubkey → α := fun k' => if k' = k then v else f k'

@[simp] theorem upd_same {α : Type} (f : Pubkey → α) (k : Pubkey) (v : α) : upd f k v k = v := by simp [upd]

theorem upd_ne {α : Type} (f : Pubkey → α) {k k' : Pubkey} (v : α) (h : k' ≠ k) : upd f k v k' = f k' := by
  simp [upd, h]

/-- `x.ok_or(e)`. -/
def okOr {α : Type} (x : Option α) (e : Err) : R α :=
  match x with
  | some a => .ok a
  | none => .error e

theorem okOr_ok {α : Type} {x : Option α} {e : Err} {a : α} : okOr x e = .ok a ↔ x = some a := by
  cases x <;> simp [okOr]

def Ledger.setTok (l : Ledger) (k : Pubkey) (a : Option TokenAcc) : Ledger := { l with tok := upd l.tok k a }
def Ledger.setMint (l : Ledger) (k : Pubkey) (m : Option Mint) : Ledger := { l with mints := upd l.mints k m }

/-- `sanctum_token_lib::token_account_balance`. -/
def tokenBalance (l : Ledger) (k : Pubkey) : R Nat := do
  let a ← okOr (l.tok k) .invalidAccountData
  pure a.amount

/-- `sanctum_token_lib::mint_supply`. -/
def mintSupply (l : Ledger) (k : Pubkey) : R Nat := do
  let m ← okOr (l.mints k) .invalidAccountData
  pure m.supply

/-- The program owning a mint account (`AccountInfo::owner` of the mint). Simplification: an account that is not a mint
gives an error here, where the real code goes on and fails at the next key check or token CPI. -/
def mintProgram (l : Ledger) (k : Pubkey) : R Pubkey := do
  let m ← okOr (l.mints k) .token
  pure m.program

/-- Accounts of a token transfer (`TransferCheckedAccounts` of `sanctum-token-lib`). -/
structure TransferAccs where
  src : Pubkey
  dst : Pubkey
  tokenProgram : Pubkey
  authority : Pubkey
  mint : Pubkey
deriving DecidableEq, Repr

/-- `transfer_checked_decimal_agnostic_invoke(_signed)`: `TransferChecked` of the token program owning the accounts.
The authority is either a signer of the instruction or one of the controller's PDAs. -/
def transfer (l : Ledger) (t : TransferAccs) (amount : Nat) : R Ledger := do
  let m ← okOr (l.mints t.mint) .token
  require (m.program = t.tokenProgram) .token
  let a ← okOr (l.tok t.src) .token
  let b ← okOr (l.tok t.dst) .token
  require (a.program = t.tokenProgram ∧ b.program = t.tokenProgram) .token
  require (a.mint = t.mint ∧ b.mint = t.mint) .token
  require (a.owner = t.authority) .token
  require (amount ≤ a.amount) .token
  if t.src = t.dst then pure l
  else do
    let n ← addU64 b.amount amount .token
    pure ((l.setTok t.src (some { a with amount := a.amount - amount })).setTok t.dst
      (some { b with amount := n }))

/-- `mint_to_invoke_signed`. -/
def mintTo (l : Ledger) (mint dst tokenProgram authority : Pubkey) (amount : Nat) : R Ledger := do
  let m ← okOr (l.mints mint) .token
  let b ← okOr (l.tok dst) .token
  require (m.program = tokenProgram ∧ b.program = tokenProgram) .token
  require (b.mint = mint) .token
  require (m.mintAuth = some authority) .token
  let n ← addU64 b.amount amount .token
  let s ← addU64 m.supply amount .token
  pure ((l.setTok dst (some { b with amount := n })).setMint mint (some { m with supply := s }))

/-- `burn_invoke`. -/
def burn (l : Ledger) (mint src tokenProgram authority : Pubkey) (amount : Nat) : R Ledger := do
  let m ← okOr (l.mints mint) .token
  let a ← okOr (l.tok src) .token
  require (m.program = tokenProgram ∧ a.program = tokenProgram) .token
  require (a.mint = mint) .token
  require (a.owner = authority) .token
  require (amount ≤ a.amount) .token
  let s ← subU64 m.supply amount .token
  pure ((l.setTok src (some { a with amount := a.amount - amount })).setMint mint
    (some { m with supply := s }))

/-- `close_token_account_invoke_signed`. -/
def closeToken (l : Ledger) (acc tokenProgram authority : Pubkey) : R Ledger := do
  let a ← okOr (l.tok acc) .token
  require (a.program = tokenProgram) .token
  require (a.owner = authority) .token
  require (a.amount = 0) .token
  pure (l.setTok acc none)

/-- `set_authority_invoke` with `AuthorityType::MintTokens`. -/
def setMintAuth (l : Ledger) (mint tokenProgram authority new : Pubkey) : R Ledger := do
  let m ← okOr (l.mints mint) .token
  require (m.program = tokenProgram) .token
  require (m.mintAuth = some authority) .token
  pure (l.setMint mint (some { m with mintAuth := some new }))

/-- `set_authority_invoke` with `AuthorityType::FreezeAccount`. -/
def setFreezeAuth (l : Ledger) (mint tokenProgram authority new : Pubkey) : R Ledger := do
  let m ← okOr (l.mints mint) .token
  require (m.program = tokenProgram) .token
  require (m.freezeAuth = some authority) .token
  pure (l.setMint mint (some { m with freezeAuth := some new }))

/-- `create_ata_invoke`: the associated token program creates the account at the address it derives. -/
def createAta (cfg : Cfg) (l : Ledger) (acc wallet tokenProgram mint : Pubkey) : R Ledger := do
  require (acc = (cfg.findAta wallet tokenProgram mint).1) .token
  require (l.tok acc = none) .token
  let m ← okOr (l.mints mint) .token
  require (m.program = tokenProgram) .token
  pure (l.setTok acc (some ⟨tokenProgram, mint, wallet, 0⟩))

end S
