import Verif.IxData
/-
Borsh layouts: the byte format of the stake pool accounts the calculators read
(generated/sol-value-calculator-programs/{spl,lido,marinade}_calculator_interface/src/typedefs.rs, all `BorshDeserialize`), given as a list
of fields in declaration order, with one generic encoder and decoder.
-/
set_option autoImplicit false
namespace S

/-- The kinds of fields that occur: little-endian integers (also public keys and byte arrays, as numbers of that many bytes),
one-byte enums without payload and booleans (tag below `n`), `Option<[u8; k]>`, and the SPL `FutureEpochFee` enum. -/
inductive Fld
  | int (k : Nat)
  | variant (n : Nat)
  | opt (k : Nat)
  | future
deriving DecidableEq, Repr

/-- Value of a field. `future 0 0 0` is `FutureEpochFee::None`, `future 1 d n` is `One`, `future 2 d n` is `Two`. -/
inductive Val
  | int (n : Nat)
  | opt (o : Option Nat)
  | future (tag denominator numerator : Nat)
deriving DecidableEq, Repr

/-- The value is one of the field's type. -/
def Fld.Has : Fld → Val → Prop
  | .int k, .int n => n < 256 ^ k
  | .variant m, .int n => n < m ∧ n < 256
  | .opt k, .opt o => ∀ n, o = some n → n < 256 ^ k
  | .future, .future t d n => (t = 0 ∧ d = 0 ∧ n = 0) ∨ ((t = 1 ∨ t = 2) ∧ d < U64 ∧ n < U64)
  | _, _ => False

/-- Borsh bytes of one field. -/
def Fld.encode : Fld → Val → List UInt8
  | .int k, .int n => toLE k n
  | .variant _, .int n => toLE 1 n
  | .opt k, .opt o => optBytes k o
  | .future, .future t d n => if t = 0 then [0] else toLE 1 t ++ (toLE 8 d ++ toLE 8 n)
  | _, _ => []

/-- Borsh decoding of one field. -/
def Fld.decode (f : Fld) (b : List UInt8) : R (Val × List UInt8) :=
  match f with
  | .int k => do let (n, r) ← readLE k b; pure (.int n, r)
  | .variant m => do
    let (n, r) ← readLE 1 b
    require (n < m) .decode
    pure (.int n, r)
  | .opt k => do let (o, r) ← readOpt k b; pure (.opt o, r)
  | .future => do
    let (t, r) ← readLE 1 b
    if t = 0 then pure (.future 0 0 0, r)
    else do
      require (t < 3) .decode
      let (d, r) ← readLE 8 r
      let (n, r) ← readLE 8 r
      pure (.future t d n, r)

def encodeFields : List Fld → List Val → List UInt8
  | f :: fs, v :: vs => f.encode v ++ encodeFields fs vs
  | _, _ => []

/-- Borsh decoding of a struct: its fields one after the other; the bytes after the last are left over. -/
def decodeFields : List Fld → List UInt8 → R (List Val × List UInt8)
  | [], b => .ok ([], b)
  | f :: fs, b => do
    let (v, b) ← f.decode b
    let (vs, b) ← decodeFields fs b
    pure (v :: vs, b)

/-- Names of the fields the code uses. -/
inductive FName
  | other
  | accountType | poolMint | totalLamports | poolTokenSupply | lastUpdateEpoch | withdrawalFeeDenominator | withdrawalFeeNumerator
  | reserveStake | solWithdrawalFeeDenominator | solWithdrawalFeeNumerator
  | stSolMint | computedInEpoch | stSolSupply | solBalance
  | discriminant | msolMint | delayedUnstakeCoolingDown | totalActiveBalance | availableReserveBalance | msolSupply
  | circulatingTicketBalance | emergencyCoolingDown | paused | withdrawStakeAccountFee | withdrawStakeAccountEnabled
deriving DecidableEq, Repr

/-- A struct: its fields in declaration order. -/
abbrev Layout := List (FName × Fld)

/-- The integer in the field of that name. -/
def Layout.get (l : Layout) (vs : List Val) (n : FName) : Nat :=
  match (l.zip vs).find? (fun x => x.1.1 = n) with
  | some (_, .int k) => k
  | _ => 0

abbrev Layout.flds (l : Layout) : List Fld := l.map (·.2)

private def pk : FName × Fld := (.other, .int 32)
private def u8 : FName × Fld := (.other, .int 1)
private def u32 : FName × Fld := (.other, .int 4)
private def u64 : FName × Fld := (.other, .int 8)

/-- `SplStakePool`, generated/sol-value-calculator-programs/spl_calculator_interface/src/typedefs.rs: account_type; manager, staker,
stake_deposit_authority; stake_withdraw_bump_seed; validator_list, reserve_stake; pool_mint; manager_fee_account, token_program_id;
total_lamports; pool_token_supply; last_update_epoch; lockup (unix_timestamp, epoch, custodian); epoch_fee; next_epoch_fee; the two preferred
validators; stake_deposit_fee; stake_withdrawal_fee; next_stake_withdrawal_fee; stake_referral_fee; sol_deposit_authority;
sol_deposit_fee; sol_referral_fee; sol_withdraw_authority; sol_withdrawal_fee; next_sol_withdrawal_fee; last_epoch_pool_token_supply;
last_epoch_total_lamports. A `Fee` is denominator, numerator. -/
def splLayout : Layout :=
  [(.accountType, .variant 3), pk, pk, pk, u8, pk, (.reserveStake, .int 32), (.poolMint, .int 32), pk, pk,
   (.totalLamports, .int 8), (.poolTokenSupply, .int 8), (.lastUpdateEpoch, .int 8),
   u64, u64, pk, u64, u64, (.other, .future), (.other, .opt 32), (.other, .opt 32), u64, u64,
   (.withdrawalFeeDenominator, .int 8), (.withdrawalFeeNumerator, .int 8), (.other, .future), u8, (.other, .opt 32), u64, u64, u8,
   (.other, .opt 32), (.solWithdrawalFeeDenominator, .int 8), (.solWithdrawalFeeNumerator, .int 8), (.other, .future), u64, u64]

/-- `Lido`, generated/sol-value-calculator-programs/lido_calculator_interface/src/typedefs.rs: account_type; lido_version; manager;
st_sol_mint; exchange_rate; three bump seeds; reward_distribution (3 × u32); fee_recipients; metrics (7 + 13 + 3 × u64); criteria
(u8, 2 × u64); three list accounts. -/
def lidoLayout : Layout :=
  [(.accountType, .variant 5), u8, pk, (.stSolMint, .int 32),
   (.computedInEpoch, .int 8), (.stSolSupply, .int 8), (.solBalance, .int 8), u8, u8, u8, u32, u32, u32, pk, pk]
  ++ List.replicate 23 u64 ++ [u8, u64, u64, pk, pk, pk]

/-- `List`, marinade typedefs. -/
private def mlist : Layout := [pk, u32, u32, pk, u32]

/-- `MarinadeState`, generated/sol-value-calculator-programs/marinade_calculator_interface/src/typedefs.rs: discriminant; msol_mint;
admin_authority, operational_sol_account, treasury_msol_account; two bump seeds; rent_exempt_for_token_acc; reward_fee; stake_system;
validator_system; liq_pool; available_reserve_balance; msol_supply; msol_price; circulating_ticket_count; circulating_ticket_balance;
lent_from_reserve; min_deposit; min_withdraw; staking_sol_cap; emergency_cooling_down; pause_authority; paused; delayed_unstake_fee;
withdraw_stake_account_fee; withdraw_stake_account_enabled; last_stake_move_epoch; stake_moved; max_stake_moved_per_epoch. -/
def marinadeLayout : Layout :=
  [(.discriminant, .int 8), (.msolMint, .int 32), pk, pk, pk, u8, u8, u64, u32]
  -- stake_system
  ++ mlist ++ [(.delayedUnstakeCoolingDown, .int 8), u8, u8, u64, u64, u64, u32]
  -- validator_system
  ++ mlist ++ [pk, u32, (.totalActiveBalance, .int 8), u8]
  -- liq_pool
  ++ [pk, u8, u8, u8, pk, u64, u32, u32, u32, u64, u64, u64]
  ++ [(.availableReserveBalance, .int 8), (.msolSupply, .int 8), u64, u64, (.circulatingTicketBalance, .int 8), u64, u64, u64, u64,
    (.emergencyCoolingDown, .int 8), pk, (.paused, .variant 2), u32, (.withdrawStakeAccountFee, .int 4),
    (.withdrawStakeAccountEnabled, .variant 2), u64, u64, u32]

end S
