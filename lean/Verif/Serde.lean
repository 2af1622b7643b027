import Verif.IxData
/-
The controller's accounts as bytes: records (libs/s-controller-lib/src/accounts_serde.rs, generated/s_controller_interface/src/typedefs.rs)
and list accounts (programs/s-controller/src/list_account.rs).
-/
set_option autoImplicit false
namespace S

/-! ### `#[repr(C)]` records -/

/-- Size and alignment of a field. -/
structure CField where
  size : Nat
  align : Nat
deriving DecidableEq, Repr

/-- `u64`, `u16`, `u32`, `u8`, `[u8; n]`, `Pubkey` (= `[u8; 32]`). -/
def CField.u64 : CField := ⟨8, 8⟩
def CField.u32 : CField := ⟨4, 4⟩
def CField.u16 : CField := ⟨2, 2⟩
def CField.u8 : CField := ⟨1, 1⟩
def CField.bytes (n : Nat) : CField := ⟨n, 1⟩
def CField.pubkey : CField := .bytes 32

/-- The next multiple of `a`. -/
def alignUp (a n : Nat) : Nat := (n + (a - 1)) / a * a

/-- `#[repr(C)]`: fields in order, each at the next offset aligned for it, counted from `off`. -/
def cOffsets : List CField → Nat → List Nat
  | [], _ => []
  | f :: fs, off => alignUp f.align off :: cOffsets fs (alignUp f.align off + f.size)

/-- `#[repr(C)]`: end of the last field. -/
def cEnd : List CField → Nat → Nat
  | [], off => off
  | f :: fs, off => cEnd fs (alignUp f.align off + f.size)

def cAlign (fs : List CField) : Nat := (fs.map CField.align).foldl Nat.max 1

/-- `std::mem::size_of` of a `#[repr(C)]` struct. -/
def cSize (fs : List CField) : Nat := alignUp (cAlign fs) (cEnd fs 0)

/-- The `k` bytes at `off`, as a little-endian number. -/
def readAt (b : List UInt8) (off k : Nat) : Nat := ofLE ((b.drop off).take k)

/-- Overwrites the `k` bytes at `off`. -/
def writeAt (b : List UInt8) (off k v : Nat) : List UInt8 := b.take off ++ (toLE k v ++ b.drop (off + k))

/-- All fields of a `#[repr(C)]` struct lying at the start of `b`. -/
def readStruct (fs : List CField) (b : List UInt8) : List Nat :=
  (fs.zip (cOffsets fs 0)).map fun x => readAt b x.2 x.1.size

/-- Field `i` of a struct in memory is assigned `v`. -/
def writeField (fs : List CField) (b : List UInt8) (i v : Nat) : List UInt8 :=
  match (fs.zip (cOffsets fs 0))[i]? with
  | some (f, off) => writeAt b off f.size v
  | none => b

/-- Borsh: the fields one after the other, without gaps. -/
def packFields : List CField → List Nat → List UInt8
  | f :: fs, v :: vs => toLE f.size v ++ packFields fs vs
  | _, _ => []

/-! ### The three records -/

/-- `PoolState`, generated/s_controller_interface/src/typedefs.rs:7-20. -/
def poolFields : List CField :=
  [.u64, .u16, .u16, .u8, .u8, .u8, .bytes 1, .pubkey, .pubkey, .pubkey, .pubkey, .pubkey]

/-- `LstState`, typedefs.rs:24-32. -/
def lstFields : List CField := [.u8, .u8, .u8, .bytes 5, .u64, .pubkey, .pubkey]

/-- `RebalanceRecord`, typedefs.rs:36-40. -/
def rebalFields : List CField := [.u64, .bytes 4, .u32]

/-- `POOL_STATE_SIZE`, `LST_STATE_SIZE`, `REBALANCE_RECORD_SIZE`, libs/s-controller-lib/src/lib.rs:33-60. -/
def POOL_STATE_SIZE : Nat := 176
def LST_STATE_SIZE : Nat := 80
def REBALANCE_RECORD_SIZE : Nat := 16

/-- Serializes the record and its padding (as a number): the borsh order of typedefs.rs, which is also the declaration order. -/
def PoolState.toBytes (p : PoolState) (padding : Nat) : List UInt8 :=
  packFields poolFields [p.totalSolValue, p.tradingProtocolFeeBps, p.lpProtocolFeeBps, p.version, p.isDisabled, p.isRebalancing, padding,
    p.admin, p.rebalanceAuthority, p.protocolFeeBeneficiary, p.pricingProgram, p.lpTokenMint]

def LstState.toBytes (s : LstState) (padding : Nat) : List UInt8 :=
  packFields lstFields [s.isInputDisabled, s.poolReservesBump, s.protocolFeeAccumulatorBump, padding, s.solValue, s.mint, s.solValueCalculator]

def RebalanceRecord.toBytes (r : RebalanceRecord) (padding : Nat) : List UInt8 :=
  packFields rebalFields [r.oldTotalSolValue, padding, r.dstLstIndex]

/-- The struct that lies at `b`, with its padding. -/
def PoolState.view (b : List UInt8) : PoolState × Nat :=
  match readStruct poolFields b with
  | [t, f1, f2, v, d, r, pad, a, ra, pb, pp, lp] => (⟨t, f1, f2, v, d, r, a, ra, pb, pp, lp⟩, pad)
  | _ => (⟨0, 0, 0, 0, 0, 0, 0, 0, 0, 0, 0⟩, 0)

def LstState.view (b : List UInt8) : LstState × Nat :=
  match readStruct lstFields b with
  | [d, b1, b2, pad, v, m, c] => (⟨d, b1, b2, v, m, c⟩, pad)
  | _ => (⟨0, 0, 0, 0, 0, 0⟩, 0)

def RebalanceRecord.view (b : List UInt8) : RebalanceRecord × Nat :=
  match readStruct rebalFields b with
  | [t, pad, i] => (⟨t, i⟩, pad)
  | _ => (⟨0, 0⟩, 0)

/-- `try_pool_state` / `try_pool_state_mut`, accounts_serde.rs:6-15: `bytemuck::try_from_bytes` fails unless the length is the struct's
size and the address is aligned. `addr` is where the bytes lie in memory. -/
def tryPoolState (addr : Nat) (b : List UInt8) : R (PoolState × Nat) :=
  if addr % cAlign poolFields ≠ 0 then .error .invalidPoolStateData
  else if b.length ≠ cSize poolFields then .error .invalidPoolStateData
  else .ok (PoolState.view b)

/-- `try_rebalance_record` / `try_rebalance_record_mut`, accounts_serde.rs:43-55. -/
def tryRebalanceRecord (addr : Nat) (b : List UInt8) : R (RebalanceRecord × Nat) :=
  if addr % cAlign rebalFields ≠ 0 then .error .invalidRebalanceRecordData
  else if b.length ≠ cSize rebalFields then .error .invalidRebalanceRecordData
  else .ok (RebalanceRecord.view b)

/-! ### List accounts -/

/-- An element type stored in list accounts (`T: AnyBitPattern`): its size, alignment, and the value at given bytes. -/
structure ElemType (α : Type) where
  size : Nat
  align : Nat
  view : List UInt8 → α
  bytes : α → List UInt8

/-- `LstState` (with its padding) as a list element. -/
def lstElem : ElemType (LstState × Nat) := ⟨cSize lstFields, cAlign lstFields, LstState.view, fun x => x.1.toBytes x.2⟩

/-- `Pubkey` as a list element (disable pool authority list). -/
def pubkeyElem : ElemType Pubkey := ⟨32, 1, fun b => readAt b 0 32, fun k => toLE 32 k⟩

section
variable {α : Type} (t : ElemType α)

/-- `try_list` / `try_list_mut`, accounts_serde.rs:64-93. -/
def tryList (addr : Nat) (b : List UInt8) : Option (List α) :=
  if b.length % t.size ≠ 0 then none
  else if addr % t.align ≠ 0 then none
  else some ((List.range (b.length / t.size)).map fun i => t.view ((b.drop (i * t.size)).take t.size))

/-- `extend_list_pda`, list_account.rs:22-51: the account grows by one element; `fresh` are the new bytes (zeros, but nothing depends
on that). Lamports and account creation not modelled. -/
def extendList (b fresh : List UInt8) : List UInt8 := b ++ fresh

/-- Assignment to element `i` of the mutable slice, as in `*new_entry = ..`, processor/add_lst.rs:67-75, add_disable_pool_authority.rs:41. -/
def writeElem (b : List UInt8) (i : Nat) (x : α) : List UInt8 :=
  b.take (i * t.size) ++ (t.bytes x ++ b.drop (i * t.size + t.size))

/-- `list.last_mut()` then assignment, processor/add_lst.rs:61-75, add_disable_pool_authority.rs:34-41. -/
def writeLast (addr : Nat) (b : List UInt8) (x : α) (e : Err) : R (List UInt8) := do
  let l ← okOr (tryList t addr b) e
  require (l ≠ []) e
  pure (writeElem t b (l.length - 1) x)

/-- Assignment to a field of element `i` of a list of structs with fields `fs`, as in `lst_state.sol_value = ..` (libs/s-controller-lib/src/state.rs:22),
`lst_state.is_input_disabled` (processor/disable_lst_input.rs:29) and `lst_state.sol_value_calculator` (processor/set_sol_value_calculator.rs). -/
def writeElemField (fs : List CField) (b : List UInt8) (i f v : Nat) : List UInt8 :=
  b.take (i * t.size) ++ (writeField fs ((b.drop (i * t.size)).take t.size) f v ++ b.drop (i * t.size + t.size))

/-- `sol_memmove`. -/
def memmove (b : List UInt8) (dst src n : Nat) : List UInt8 := b.take dst ++ ((b.drop src).take n ++ b.drop (dst + n))

/-- `remove_from_list_pda`, list_account.rs:64-112 (lamports and account closing not modelled; `usize` is 64 bits). -/
def removeFromList (b : List UInt8) (i : Nat) : R (List UInt8) := do
  let off ← toU64 (i * t.size)
  let next ← toU64 (off + t.size)
  require (next ≤ b.length) .math
  let b := memmove b off next (b.length - next)
  require (t.size ≤ b.length) .math
  pure (b.take (b.length - t.size))

end

end S
