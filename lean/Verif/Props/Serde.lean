import Verif.Serde
import Verif.Props.Data
import Verif.Props.Lists
import Mathlib.Tactic.Tauto
/-
C29: account data round-trips. C30: list accounts behave as lists.
-/
set_option autoImplicit false
namespace S

/-! ### Structs without gaps -/

/-- Every field starts where the previous one ends. -/
def NoGaps : List CField → Nat → Prop
  | [], _ => True
  | f :: fs, off => alignUp f.align off = off ∧ NoGaps fs (off + f.size)

instance : (fs : List CField) → (off : Nat) → Decidable (NoGaps fs off)
  | [], _ => .isTrue trivial
  | f :: fs, off =>
    have : Decidable (NoGaps fs (off + f.size)) := instDecidableNoGaps fs (off + f.size)
    inferInstanceAs (Decidable (_ ∧ _))

/-- Each value fits its field. -/
def Fits : List CField → List Nat → Prop
  | [], [] => True
  | f :: fs, v :: vs => v < 256 ^ f.size ∧ Fits fs vs
  | _, _ => False

/-- The sum of the sizes. -/
def packSize (fs : List CField) : Nat := (fs.map CField.size).sum

theorem packFields_length {fs : List CField} {vs : List Nat} (h : Fits fs vs) : (packFields fs vs).length = packSize fs := by
  induction fs generalizing vs with
  | nil => cases vs <;> simp_all [Fits, packFields, packSize]
  | cons f fs ih =>
    cases vs with
    | nil => exact h.elim
    | cons v vs => simp [packFields, toLE_length, ih h.2, packSize]

theorem readAt_append {a b c : List UInt8} {off k : Nat} (ha : a.length = off) (hb : b.length = k) : readAt (a ++ (b ++ c)) off k = ofLE b := by
  subst ha hb; simp [readAt]

theorem read_pack {fs : List CField} {vs : List Nat} (hf : Fits fs vs) {off : Nat} (hg : NoGaps fs off) {pre rest : List UInt8} (hp : pre.length = off) :
    ((fs.zip (cOffsets fs off)).map fun x => readAt (pre ++ (packFields fs vs ++ rest)) x.2 x.1.size) = vs := by
  induction fs generalizing vs off pre with
  | nil => cases vs with
    | nil => rfl
    | cons => exact hf.elim
  | cons f fs ih =>
    cases vs with
    | nil => exact hf.elim
    | cons v vs =>
      simp only [cOffsets, hg.1, List.zip_cons_cons, List.map_cons, packFields, List.append_assoc]
      rw [readAt_append hp (toLE_length _ _), ofLE_toLE _ _ hf.1]
      have := ih hf.2 hg.2 (pre := pre ++ toLE f.size v) (by simp [hp, toLE_length])
      rw [List.append_assoc] at this
      rw [this]

/-- What reading an arbitrary buffer of the right length gives fits, and packs to the same bytes. -/
theorem pack_read {fs : List CField} {off : Nat} (hg : NoGaps fs off) {pre b : List UInt8} (hp : pre.length = off) (hb : b.length = packSize fs) :
    Fits fs ((fs.zip (cOffsets fs off)).map fun x => readAt (pre ++ b) x.2 x.1.size) ∧
    packFields fs ((fs.zip (cOffsets fs off)).map fun x => readAt (pre ++ b) x.2 x.1.size) = b := by
  induction fs generalizing off pre b with
  | nil => simp [packSize] at hb; subst hb; exact ⟨trivial, rfl⟩
  | cons f fs ih =>
    have hb' : b.length = f.size + packSize fs := by simpa [packSize] using hb
    have e : pre ++ b = pre ++ (b.take f.size ++ b.drop f.size) := by simp
    have hk : (b.take f.size).length = f.size := by rw [List.length_take]; omega
    have e1 : readAt (pre ++ b) off f.size = ofLE (b.take f.size) := by rw [e]; exact readAt_append hp hk
    have hlt : ofLE (b.take f.size) < 256 ^ f.size := by have := ofLE_lt (b.take f.size); rwa [hk] at this
    have := ih hg.2 (pre := pre ++ b.take f.size) (b := b.drop f.size) (by rw [List.length_append, hp, hk]) (by rw [List.length_drop]; omega)
    rw [List.append_assoc, List.take_append_drop] at this
    simp only [cOffsets, hg.1, List.zip_cons_cons, List.map_cons]
    refine ⟨⟨by rw [e1]; exact hlt, this.1⟩, ?_⟩
    simp only [packFields, e1, this.2]
    have h2 := toLE_ofLE (b.take f.size)
    rw [hk] at h2
    rw [h2, List.take_append_drop]

theorem readStruct_pack {fs : List CField} {vs : List Nat} (hf : Fits fs vs) (hg : NoGaps fs 0) : readStruct fs (packFields fs vs) = vs := by
  have := read_pack hf hg (pre := []) (rest := []) rfl
  simpa [readStruct] using this

theorem pack_readStruct {fs : List CField} (hg : NoGaps fs 0) {b : List UInt8} (hb : b.length = packSize fs) :
    Fits fs (readStruct fs b) ∧ packFields fs (readStruct fs b) = b := by
  have := pack_read hg (pre := []) rfl hb
  simpa [readStruct] using this

theorem readStruct_length {fs : List CField} {off : Nat} : (cOffsets fs off).length = fs.length := by
  induction fs generalizing off with
  | nil => rfl
  | cons f fs ih => simp [cOffsets, ih]

/-! ### C29 -/

/-- All fields of the record are within their types. -/
def PoolState.InRange (p : PoolState) : Prop :=
  p.totalSolValue < 2 ^ 64 ∧ p.tradingProtocolFeeBps < 2 ^ 16 ∧ p.lpProtocolFeeBps < 2 ^ 16 ∧ p.version < 2 ^ 8 ∧ p.isDisabled < 2 ^ 8 ∧
  p.isRebalancing < 2 ^ 8 ∧ p.admin < 2 ^ 256 ∧ p.rebalanceAuthority < 2 ^ 256 ∧ p.protocolFeeBeneficiary < 2 ^ 256 ∧
  p.pricingProgram < 2 ^ 256 ∧ p.lpTokenMint < 2 ^ 256

def LstState.InRange (s : LstState) : Prop :=
  s.isInputDisabled < 2 ^ 8 ∧ s.poolReservesBump < 2 ^ 8 ∧ s.protocolFeeAccumulatorBump < 2 ^ 8 ∧ s.solValue < 2 ^ 64 ∧
  s.mint < 2 ^ 256 ∧ s.solValueCalculator < 2 ^ 256

def RebalanceRecord.InRange (r : RebalanceRecord) : Prop := r.oldTotalSolValue < 2 ^ 64 ∧ r.dstLstIndex < 2 ^ 32

/-- The compile-time assertions of libs/s-controller-lib/src/lib.rs:33-60, and no hidden padding between fields. -/
theorem C29_sizes : cSize poolFields = POOL_STATE_SIZE ∧ cAlign poolFields = 8 ∧ cSize lstFields = LST_STATE_SIZE ∧ cAlign lstFields = 8 ∧
    cSize rebalFields = REBALANCE_RECORD_SIZE ∧ cAlign rebalFields = 8 ∧ NoGaps poolFields 0 ∧ NoGaps lstFields 0 ∧ NoGaps rebalFields 0 ∧
    packSize poolFields = POOL_STATE_SIZE ∧ packSize lstFields = LST_STATE_SIZE ∧ packSize rebalFields = REBALANCE_RECORD_SIZE := by decide

private theorem pool_fits {p : PoolState} {pad : Nat} : Fits poolFields [p.totalSolValue, p.tradingProtocolFeeBps, p.lpProtocolFeeBps, p.version, p.isDisabled,
    p.isRebalancing, pad, p.admin, p.rebalanceAuthority, p.protocolFeeBeneficiary, p.pricingProgram, p.lpTokenMint] ↔ p.InRange ∧ pad < 2 ^ 8 := by
  simp only [poolFields, Fits, PoolState.InRange, CField.u64, CField.u16, CField.u8, CField.pubkey, CField.bytes]
  simp only [Nat.reducePow, and_true]
  tauto

private theorem lst_fits {s : LstState} {pad : Nat} : Fits lstFields [s.isInputDisabled, s.poolReservesBump, s.protocolFeeAccumulatorBump, pad, s.solValue, s.mint,
    s.solValueCalculator] ↔ s.InRange ∧ pad < 2 ^ 40 := by
  simp only [lstFields, Fits, LstState.InRange, CField.u64, CField.u8, CField.pubkey, CField.bytes]
  simp only [Nat.reducePow, and_true]
  tauto

private theorem rebal_fits {r : RebalanceRecord} {pad : Nat} : Fits rebalFields [r.oldTotalSolValue, pad, r.dstLstIndex] ↔ r.InRange ∧ pad < 2 ^ 32 := by
  simp only [rebalFields, Fits, RebalanceRecord.InRange, CField.u64, CField.u32, CField.bytes]
  simp only [Nat.reducePow, and_true]
  tauto

private theorem fits_length {fs : List CField} {vs : List Nat} (h : Fits fs vs) : vs.length = fs.length := by
  induction fs generalizing vs with
  | nil => cases vs with
    | nil => rfl
    | cons => exact h.elim
  | cons f fs ih => cases vs with
    | nil => exact h.elim
    | cons v vs => simp [ih h.2]

theorem PoolState.view_toBytes {p : PoolState} {pad : Nat} (h : p.InRange) (hp : pad < 2 ^ 8) : PoolState.view (p.toBytes pad) = (p, pad) := by
  simp only [PoolState.view, PoolState.toBytes, readStruct_pack (pool_fits.2 ⟨h, hp⟩) C29_sizes.2.2.2.2.2.2.1]

theorem LstState.view_toBytes {s : LstState} {pad : Nat} (h : s.InRange) (hp : pad < 2 ^ 40) : LstState.view (s.toBytes pad) = (s, pad) := by
  simp only [LstState.view, LstState.toBytes, readStruct_pack (lst_fits.2 ⟨h, hp⟩) C29_sizes.2.2.2.2.2.2.2.1]

theorem RebalanceRecord.view_toBytes {r : RebalanceRecord} {pad : Nat} (h : r.InRange) (hp : pad < 2 ^ 32) :
    RebalanceRecord.view (r.toBytes pad) = (r, pad) := by
  simp only [RebalanceRecord.view, RebalanceRecord.toBytes, readStruct_pack (rebal_fits.2 ⟨h, hp⟩) C29_sizes.2.2.2.2.2.2.2.2.1]

theorem PoolState.view_total {b : List UInt8} (hb : b.length = POOL_STATE_SIZE) :
    ∃ p pad, PoolState.view b = (p, pad) ∧ p.InRange ∧ pad < 2 ^ 8 ∧ p.toBytes pad = b := by
  obtain ⟨hf, hp⟩ := pack_readStruct C29_sizes.2.2.2.2.2.2.1 (hb.trans (by decide) : b.length = packSize poolFields)
  have hl := fits_length hf
  generalize hv : readStruct poolFields b = vs at hf hp hl
  rcases vs with _ | ⟨a, _ | ⟨b1, _ | ⟨c, _ | ⟨d, _ | ⟨e, _ | ⟨f, _ | ⟨g, _ | ⟨h, _ | ⟨i, _ | ⟨j, _ | ⟨k, _ | ⟨l, _ | ⟨m, n⟩⟩⟩⟩⟩⟩⟩⟩⟩⟩⟩⟩⟩ <;>
    simp only [poolFields, List.length_cons, List.length_nil] at hl <;> try omega
  have := pool_fits (p := ⟨a, b1, c, d, e, f, h, i, j, k, l⟩) (pad := g) |>.1 hf
  exact ⟨⟨a, b1, c, d, e, f, h, i, j, k, l⟩, g, by simp only [PoolState.view, hv], this.1, this.2, hp⟩

theorem LstState.view_total {b : List UInt8} (hb : b.length = LST_STATE_SIZE) :
    ∃ s pad, LstState.view b = (s, pad) ∧ s.InRange ∧ pad < 2 ^ 40 ∧ s.toBytes pad = b := by
  obtain ⟨hf, hp⟩ := pack_readStruct C29_sizes.2.2.2.2.2.2.2.1 (hb.trans (by decide) : b.length = packSize lstFields)
  have hl := fits_length hf
  generalize hv : readStruct lstFields b = vs at hf hp hl
  rcases vs with _ | ⟨a, _ | ⟨b1, _ | ⟨c, _ | ⟨d, _ | ⟨e, _ | ⟨f, _ | ⟨g, _ | ⟨m, n⟩⟩⟩⟩⟩⟩⟩⟩ <;>
    simp only [lstFields, List.length_cons, List.length_nil] at hl <;> try omega
  have := lst_fits (s := ⟨a, b1, c, e, f, g⟩) (pad := d) |>.1 hf
  exact ⟨⟨a, b1, c, e, f, g⟩, d, by simp only [LstState.view, hv], this.1, this.2, hp⟩

theorem RebalanceRecord.view_total {b : List UInt8} (hb : b.length = REBALANCE_RECORD_SIZE) :
    ∃ r pad, RebalanceRecord.view b = (r, pad) ∧ r.InRange ∧ pad < 2 ^ 32 ∧ r.toBytes pad = b := by
  obtain ⟨hf, hp⟩ := pack_readStruct C29_sizes.2.2.2.2.2.2.2.2.1 (hb.trans (by decide) : b.length = packSize rebalFields)
  have hl := fits_length hf
  generalize hv : readStruct rebalFields b = vs at hf hp hl
  rcases vs with _ | ⟨a, _ | ⟨b1, _ | ⟨c, _ | ⟨m, n⟩⟩⟩⟩ <;>
    simp only [rebalFields, List.length_cons, List.length_nil] at hl <;> try omega
  have := rebal_fits (r := ⟨a, c⟩) (pad := b1) |>.1 hf
  exact ⟨⟨a, c⟩, b1, by simp only [RebalanceRecord.view, hv], this.1, this.2, hp⟩

theorem PoolState.toBytes_length {p : PoolState} {pad : Nat} (h : p.InRange) (hp : pad < 2 ^ 8) : (p.toBytes pad).length = POOL_STATE_SIZE :=
  (packFields_length (pool_fits.2 ⟨h, hp⟩)).trans (by decide)

theorem LstState.toBytes_length {s : LstState} {pad : Nat} (h : s.InRange) (hp : pad < 2 ^ 40) : (s.toBytes pad).length = LST_STATE_SIZE :=
  (packFields_length (lst_fits.2 ⟨h, hp⟩)).trans (by decide)

theorem RebalanceRecord.toBytes_length {r : RebalanceRecord} {pad : Nat} (h : r.InRange) (hp : pad < 2 ^ 32) :
    (r.toBytes pad).length = REBALANCE_RECORD_SIZE :=
  (packFields_length (rebal_fits.2 ⟨h, hp⟩)).trans (by decide)

/-- C29, pool state: the account data reads as record `p` (with one padding byte) exactly when it is the serialization of `p`, which is
always 176 bytes; every 8-aligned 176-byte string reads as some record, and nothing else is accepted. -/
theorem C29_pool_state (addr : Nat) (b : List UInt8) :
    (∀ p pad, tryPoolState addr b = .ok (p, pad) ↔ 8 ∣ addr ∧ p.InRange ∧ pad < 2 ^ 8 ∧ b = p.toBytes pad) ∧
    (∀ (p : PoolState) (pad : Nat), p.InRange → pad < 2 ^ 8 → (p.toBytes pad).length = 176) ∧
    (8 ∣ addr → b.length = 176 → ∃ p pad, tryPoolState addr b = .ok (p, pad)) ∧
    (b.length ≠ 176 → tryPoolState addr b = .error .invalidPoolStateData) := by
  have hs : cSize poolFields = 176 ∧ cAlign poolFields = 8 := by decide
  refine ⟨fun p pad => ?_, fun p pad h hp => PoolState.toBytes_length h hp, ?_, ?_⟩
  · unfold tryPoolState
    rw [hs.1, hs.2]
    constructor
    · intro h
      split at h; · cases h
      split at h; · cases h
      rename_i ha hl
      obtain ⟨p', pad', e, h1, h2, h3⟩ := PoolState.view_total (b := b) (by simpa [POOL_STATE_SIZE] using hl)
      rw [e] at h; injection h with h; injection h with e1 e2; subst e1 e2
      exact ⟨Nat.dvd_of_mod_eq_zero (by omega), h1, h2, h3.symm⟩
    · rintro ⟨ha, h1, h2, rfl⟩
      rw [if_neg (by have := Nat.mod_eq_zero_of_dvd ha; omega), if_neg (by rw [PoolState.toBytes_length h1 h2]; decide), PoolState.view_toBytes h1 h2]
  · intro ha hb
    obtain ⟨p, pad, e, _⟩ := PoolState.view_total (b := b) hb
    refine ⟨p, pad, ?_⟩
    unfold tryPoolState
    rw [hs.1, hs.2, if_neg (by have := Nat.mod_eq_zero_of_dvd ha; omega), if_neg (by omega), e]
  · intro hb
    unfold tryPoolState
    rw [hs.1]
    split
    · rfl
    · rfl

/-- C29, rebalance record: 16 bytes, four of them padding. -/
theorem C29_rebalance_record (addr : Nat) (b : List UInt8) :
    (∀ r pad, tryRebalanceRecord addr b = .ok (r, pad) ↔ 8 ∣ addr ∧ r.InRange ∧ pad < 2 ^ 32 ∧ b = r.toBytes pad) ∧
    (∀ (r : RebalanceRecord) (pad : Nat), r.InRange → pad < 2 ^ 32 → (r.toBytes pad).length = 16) ∧
    (8 ∣ addr → b.length = 16 → ∃ r pad, tryRebalanceRecord addr b = .ok (r, pad)) ∧
    (b.length ≠ 16 → tryRebalanceRecord addr b = .error .invalidRebalanceRecordData) := by
  have hs : cSize rebalFields = 16 ∧ cAlign rebalFields = 8 := by decide
  refine ⟨fun p pad => ?_, fun p pad h hp => RebalanceRecord.toBytes_length h hp, ?_, ?_⟩
  · unfold tryRebalanceRecord
    rw [hs.1, hs.2]
    constructor
    · intro h
      split at h; · cases h
      split at h; · cases h
      rename_i ha hl
      obtain ⟨p', pad', e, h1, h2, h3⟩ := RebalanceRecord.view_total (b := b) (by simpa [REBALANCE_RECORD_SIZE] using hl)
      rw [e] at h; injection h with h; injection h with e1 e2; subst e1 e2
      exact ⟨Nat.dvd_of_mod_eq_zero (by omega), h1, h2, h3.symm⟩
    · rintro ⟨ha, h1, h2, rfl⟩
      rw [if_neg (by have := Nat.mod_eq_zero_of_dvd ha; omega), if_neg (by rw [RebalanceRecord.toBytes_length h1 h2]; decide),
        RebalanceRecord.view_toBytes h1 h2]
  · intro ha hb
    obtain ⟨p, pad, e, _⟩ := RebalanceRecord.view_total (b := b) hb
    refine ⟨p, pad, ?_⟩
    unfold tryRebalanceRecord
    rw [hs.1, hs.2, if_neg (by have := Nat.mod_eq_zero_of_dvd ha; omega), if_neg (by omega), e]
  · intro hb
    unfold tryRebalanceRecord
    rw [hs.1]
    split
    · rfl
    · rfl

/-! Assignments to single fields -/

theorem writeAt_append {a b c : List UInt8} {off k v : Nat} (ha : a.length = off) (hb : b.length = k) :
    writeAt (a ++ (b ++ c)) off k v = a ++ (toLE k v ++ c) := by
  subst ha hb; simp [writeAt]

theorem writeField_gen {fs : List CField} {vs : List Nat} (hf : Fits fs vs) {off : Nat} (hg : NoGaps fs off) {pre rest : List UInt8} (hp : pre.length = off)
    {i v : Nat} {f : CField} {o : Nat} (hi : (fs.zip (cOffsets fs off))[i]? = some (f, o)) :
    writeAt (pre ++ (packFields fs vs ++ rest)) o f.size v = pre ++ (packFields fs (vs.set i v) ++ rest) := by
  induction fs generalizing vs off pre i with
  | nil => simp at hi
  | cons g fs ih =>
    cases vs with
    | nil => exact hf.elim
    | cons x vs =>
      simp only [cOffsets, hg.1, List.zip_cons_cons] at hi
      cases i with
      | zero =>
        simp only [List.getElem?_cons_zero, Option.some.injEq, Prod.mk.injEq] at hi
        obtain ⟨rfl, rfl⟩ := hi
        simp only [packFields, List.set_cons_zero, List.append_assoc]
        exact writeAt_append hp (toLE_length _ _)
      | succ i =>
        simp only [List.getElem?_cons_succ] at hi
        have := ih hf.2 hg.2 (pre := pre ++ toLE g.size x) (by simp [hp, toLE_length]) hi
        simpa [packFields, List.append_assoc] using this

theorem writeField_pack {fs : List CField} {vs : List Nat} (hf : Fits fs vs) (hg : NoGaps fs 0) (i v : Nat) :
    writeField fs (packFields fs vs) i v = packFields fs (vs.set i v) := by
  unfold writeField
  split
  · rename_i f off hi
    have := writeField_gen hf hg (pre := []) (rest := []) rfl (v := v) hi
    simpa using this
  · rename_i hi
    have : fs.length ≤ i := by
      have := List.getElem?_eq_none_iff.1 hi
      simpa [readStruct_length] using this
    rw [List.set_eq_of_length_le (by rw [fits_length hf]; exact this)]

/-- The fields of the pool state the program assigns to. -/
inductive PoolField
  | totalSolValue | tradingProtocolFeeBps | lpProtocolFeeBps | isDisabled | isRebalancing | admin | rebalanceAuthority | protocolFeeBeneficiary
  | pricingProgram
deriving DecidableEq, Repr

/-- Position in the declaration of `PoolState`. -/
def PoolField.idx : PoolField → Nat
  | .totalSolValue => 0 | .tradingProtocolFeeBps => 1 | .lpProtocolFeeBps => 2 | .isDisabled => 4 | .isRebalancing => 5 | .admin => 7
  | .rebalanceAuthority => 8 | .protocolFeeBeneficiary => 9 | .pricingProgram => 10

def PoolField.bits : PoolField → Nat
  | .totalSolValue => 64 | .tradingProtocolFeeBps => 16 | .lpProtocolFeeBps => 16 | .isDisabled => 8 | .isRebalancing => 8 | .admin => 256
  | .rebalanceAuthority => 256 | .protocolFeeBeneficiary => 256 | .pricingProgram => 256

def PoolField.assign (p : PoolState) (v : Nat) : PoolField → PoolState
  | .totalSolValue => { p with totalSolValue := v }
  | .tradingProtocolFeeBps => { p with tradingProtocolFeeBps := v }
  | .lpProtocolFeeBps => { p with lpProtocolFeeBps := v }
  | .isDisabled => { p with isDisabled := v }
  | .isRebalancing => { p with isRebalancing := v }
  | .admin => { p with admin := v }
  | .rebalanceAuthority => { p with rebalanceAuthority := v }
  | .protocolFeeBeneficiary => { p with protocolFeeBeneficiary := v }
  | .pricingProgram => { p with pricingProgram := v }

/-- C29: assigning one field of the pool state account's bytes changes that field of the record and nothing else, not even padding. -/
theorem C29_pool_write {addr : Nat} {b : List UInt8} {p : PoolState} {pad : Nat} (h : tryPoolState addr b = .ok (p, pad)) (f : PoolField) {v : Nat}
    (hv : v < 2 ^ f.bits) : tryPoolState addr (writeField poolFields b f.idx v) = .ok (f.assign p v, pad) := by
  obtain ⟨ha, h1, h2, rfl⟩ := ((C29_pool_state addr b).1 p pad).1 h
  refine ((C29_pool_state addr _).1 _ pad).2 ⟨ha, ?_, h2, ?_⟩
  · obtain ⟨a, b, c, d, e, g, i, j, k, l, m⟩ := h1
    cases f <;> (simp only [PoolField.bits] at hv; exact ⟨by assumption, by assumption, by assumption, by assumption, by assumption, by assumption,
      by assumption, by assumption, by assumption, by assumption, by assumption⟩)
  · rw [PoolState.toBytes, writeField_pack (pool_fits.2 ⟨h1, h2⟩) C29_sizes.2.2.2.2.2.2.1]
    cases f <;> rfl

/-! ### C30 -/

/-- `t` stores the values satisfying `ok` as `t.size` bytes each, and every `t.size` bytes are such a value. -/
structure ElemType.Lawful {α : Type} (t : ElemType α) (ok : α → Prop) : Prop where
  pos : 0 < t.size
  len : ∀ {x}, ok x → (t.bytes x).length = t.size
  view_bytes : ∀ {x}, ok x → t.view (t.bytes x) = x
  view_ok : ∀ {b}, b.length = t.size → ok (t.view b)
  bytes_view : ∀ {b}, b.length = t.size → t.bytes (t.view b) = b

/-- An LST entry with padding, all within range. -/
def LstOk (x : LstState × Nat) : Prop := x.1.InRange ∧ x.2 < 2 ^ 40

theorem lstElem_lawful : lstElem.Lawful LstOk where
  pos := by decide
  len := fun {x} h => (LstState.toBytes_length h.1 h.2).trans (by decide)
  view_bytes := fun {x} h => LstState.view_toBytes h.1 h.2
  view_ok := fun {b} h => by
    obtain ⟨s, pad, e, h1, h2, _⟩ := LstState.view_total (b := b) (h.trans (by decide))
    show LstOk (LstState.view b)
    rw [e]; exact ⟨h1, h2⟩
  bytes_view := fun {b} h => by
    obtain ⟨s, pad, e, _, _, h3⟩ := LstState.view_total (b := b) (h.trans (by decide))
    show (LstState.view b).1.toBytes (LstState.view b).2 = b
    rw [e]; exact h3

theorem pubkeyElem_lawful : pubkeyElem.Lawful (· < 2 ^ 256) where
  pos := by decide
  len := fun {x} _ => toLE_length _ _
  view_bytes := fun {x} h => by
    show ofLE (((toLE 32 x).drop 0).take 32) = x
    rw [List.drop_zero, List.take_of_length_le (by rw [toLE_length]), ofLE_toLE _ _ (by simpa using h)]
  view_ok := fun {b} h => by
    have h : b.length = 32 := h
    show ofLE ((b.drop 0).take 32) < 2 ^ 256
    rw [List.drop_zero, List.take_of_length_le (by omega)]
    have := ofLE_lt b
    rw [h] at this
    simpa using this
  bytes_view := fun {b} h => by
    have h : b.length = 32 := h
    show toLE 32 (ofLE ((b.drop 0).take 32)) = b
    rw [List.drop_zero, List.take_of_length_le (by omega), ← h, toLE_ofLE]

section
variable {α : Type} {t : ElemType α} {ok : α → Prop}

/-- The bytes of the elements one after the other. -/
def listBytes (t : ElemType α) (l : List α) : List UInt8 := l.flatMap t.bytes

theorem listBytes_length (ht : t.Lawful ok) {l : List α} (h : ∀ x ∈ l, ok x) : (listBytes t l).length = l.length * t.size := by
  induction l with
  | nil => simp [listBytes]
  | cons x l ih =>
    have := ih fun y hy => h y (List.mem_cons_of_mem _ hy)
    simp only [listBytes, List.flatMap_cons, List.length_append, List.length_cons] at this ⊢
    rw [this, ht.len (h x List.mem_cons_self), Nat.succ_mul, Nat.add_comm]

theorem listBytes_append (l l' : List α) : listBytes t (l ++ l') = listBytes t l ++ listBytes t l' := by simp [listBytes]

theorem listBytes_cons (x : α) (l : List α) : listBytes t (x :: l) = t.bytes x ++ listBytes t l := by simp [listBytes]

private theorem elems_cons {b : List UInt8} {n : Nat} {x : List UInt8} (hx : x.length = t.size) :
    ((List.range (n + 1)).map fun i => t.view (((x ++ b).drop (i * t.size)).take t.size)) =
      t.view x :: ((List.range n).map fun i => t.view ((b.drop (i * t.size)).take t.size)) := by
  rw [List.range_succ_eq_map]
  simp only [List.map_cons, List.map_map, Nat.zero_mul, List.drop_zero]
  congr 1
  · rw [List.take_append_of_le_length (by omega), List.take_of_length_le (by omega)]
  · apply List.map_congr_left
    intro i _
    simp only [Function.comp]
    rw [Nat.succ_mul, Nat.add_comm, ← hx, ← List.drop_drop, List.drop_left, hx]

theorem elems_listBytes (ht : t.Lawful ok) {l : List α} (h : ∀ x ∈ l, ok x) :
    ((List.range l.length).map fun i => t.view (((listBytes t l).drop (i * t.size)).take t.size)) = l := by
  induction l with
  | nil => rfl
  | cons x l ih =>
    have hx := h x List.mem_cons_self
    rw [listBytes_cons, List.length_cons, elems_cons (ht.len hx), ih fun y hy => h y (List.mem_cons_of_mem _ hy), ht.view_bytes hx]

theorem listBytes_elems (ht : t.Lawful ok) {n : Nat} {b : List UInt8} (h : b.length = n * t.size) :
    ∃ l, l.length = n ∧ (∀ x ∈ l, ok x) ∧ listBytes t l = b := by
  induction n generalizing b with
  | zero => exact ⟨[], rfl, by simp, by simp at h; subst h; rfl⟩
  | succ n ih =>
    rw [Nat.succ_mul] at h
    have hx : (b.take t.size).length = t.size := by rw [List.length_take]; omega
    obtain ⟨l, hl, ho, hb⟩ := ih (b := b.drop t.size) (by rw [List.length_drop]; omega)
    refine ⟨t.view (b.take t.size) :: l, by simp [hl], ?_, ?_⟩
    · intro y hy
      rcases List.mem_cons.1 hy with rfl | hy
      · exact ht.view_ok hx
      · exact ho y hy
    · rw [listBytes_cons, ht.bytes_view hx, hb, List.take_append_drop]

/-- C30, reading: list account data reads as `l` exactly when it is the elements' bytes one after the other; it fails to read exactly when its
length is not a multiple of the element size or its address is misaligned. -/
theorem C30_read (ht : t.Lawful ok) (addr : Nat) (b : List UInt8) :
    (∀ l, tryList t addr b = some l ↔ t.align ∣ addr ∧ (∀ x ∈ l, ok x) ∧ b = listBytes t l) ∧
    (tryList t addr b = none ↔ ¬ t.size ∣ b.length ∨ ¬ t.align ∣ addr) := by
  have key : t.size ∣ b.length → t.align ∣ addr → ∃ l, (∀ x ∈ l, ok x) ∧ listBytes t l = b ∧ tryList t addr b = some l := by
    intro h1 h2
    obtain ⟨n, hn⟩ := h1
    obtain ⟨l, hl, ho, hb⟩ := listBytes_elems ht (n := n) (b := b) (by rw [hn, Nat.mul_comm])
    refine ⟨l, ho, hb, ?_⟩
    unfold tryList
    rw [if_neg (by rw [hn]; simp), if_neg (by have := Nat.mod_eq_zero_of_dvd h2; omega), hn, Nat.mul_div_cancel_left _ ht.pos, ← hb, ← hl,
      elems_listBytes ht ho]
  have fail : ¬ t.size ∣ b.length ∨ ¬ t.align ∣ addr → tryList t addr b = none := by
    intro h
    unfold tryList
    rcases h with h | h
    · rw [if_pos fun e => h (Nat.dvd_of_mod_eq_zero e)]
    · split
      · rfl
      · rw [if_pos fun e => h (Nat.dvd_of_mod_eq_zero e)]
  constructor
  · intro l
    constructor
    · intro h
      by_cases h1 : t.size ∣ b.length
      · by_cases h2 : t.align ∣ addr
        · obtain ⟨l', ho, hb, h'⟩ := key h1 h2
          rw [h] at h'; injection h' with h'; subst h'
          exact ⟨h2, ho, hb.symm⟩
        · rw [fail (.inr h2)] at h; cases h
      · rw [fail (.inl h1)] at h; cases h
    · rintro ⟨h2, ho, rfl⟩
      unfold tryList
      rw [listBytes_length ht ho, if_neg (by simp), if_neg (by have := Nat.mod_eq_zero_of_dvd h2; omega), Nat.mul_div_cancel _ ht.pos, elems_listBytes ht ho]
  · constructor
    · intro h
      by_contra hc
      rw [not_or, not_not, not_not] at hc
      obtain ⟨l, _, _, h'⟩ := key hc.1 hc.2
      rw [h] at h'; cases h'
    · exact fail

/-- C30: assignment to element `i` is `List.set`. -/
theorem C30_assign (ht : t.Lawful ok) {addr : Nat} {b : List UInt8} {l : List α} (h : tryList t addr b = some l) {i : Nat} (hi : i < l.length) {x : α}
    (hx : ok x) : tryList t addr (writeElem t b i x) = some (l.set i x) := by
  obtain ⟨ha, ho, rfl⟩ := ((C30_read ht addr b).1 l).1 h
  refine ((C30_read ht addr _).1 _).2 ⟨ha, fun y hy => ?_, ?_⟩
  · rcases List.mem_or_eq_of_mem_set hy with hy | rfl
    · exact ho y hy
    · exact hx
  · have e : l = l.take i ++ l[i] :: l.drop (i + 1) := by simp
    have hl1 : (listBytes t (l.take i)).length = i * t.size := by
      rw [listBytes_length ht fun y hy => ho y (List.mem_of_mem_take hy), List.length_take, Nat.min_eq_left (by omega)]
    have hl2 : (t.bytes l[i]).length = t.size := ht.len (ho _ (List.getElem_mem hi))
    have es : l.set i x = l.take i ++ x :: l.drop (i + 1) := List.set_eq_take_append_cons_drop.trans (by simp [hi])
    rw [es, listBytes_append, listBytes_cons]
    unfold writeElem
    conv_lhs => rw [e, listBytes_append, listBytes_cons]
    rw [List.take_append_of_le_length (by omega), List.take_of_length_le (by omega)]
    congr 2
    rw [← List.append_assoc, List.drop_append_of_le_length (by rw [List.length_append]; omega), List.drop_of_length_le (by rw [List.length_append]; omega),
      List.nil_append]

/-- C30, adding: growing the account by one element's worth of bytes, whatever they are, and assigning to the last element appends it. -/
theorem C30_append (ht : t.Lawful ok) {addr : Nat} {b fresh : List UInt8} {l : List α} (h : tryList t addr b = some l) (hf : fresh.length = t.size) {x : α}
    (hx : ok x) (e : Err) : ∃ b', writeLast t addr (extendList b fresh) x e = .ok b' ∧ tryList t addr b' = some (l ++ [x]) := by
  obtain ⟨ha, ho, rfl⟩ := ((C30_read ht addr b).1 l).1 h
  have h2 : tryList t addr (extendList (listBytes t l) fresh) = some (l ++ [t.view fresh]) := by
    refine ((C30_read ht addr _).1 _).2 ⟨ha, fun y hy => ?_, ?_⟩
    · rcases List.mem_append.1 hy with hy | hy
      · exact ho y hy
      · rw [List.mem_singleton.1 hy]; exact ht.view_ok hf
    · rw [listBytes_append, listBytes_cons, ht.bytes_view hf]; simp [extendList, listBytes]
  refine ⟨writeElem t (extendList (listBytes t l) fresh) l.length x, ?_, ?_⟩
  · unfold writeLast
    rw [h2]
    simp only [okOr, bind_ok, require_ok, exists_const, pure_ok, Except.ok.injEq, exists_eq_left']
    exact ⟨by simp, by simp⟩
  · rw [C30_assign ht h2 (by simp) hx]
    simp

/-- C30, removing: `remove_from_list_pda` succeeds exactly for indices of the list, and what is left is the list without that element, the later ones
moved up by one. -/
theorem C30_remove (ht : t.Lawful ok) {addr : Nat} {b b' : List UInt8} {l : List α} {i : Nat} (h : tryList t addr b = some l) (hb : b.length < U64) :
    removeFromList t b i = .ok b' ↔ i < l.length ∧ tryList t addr b' = some (l.eraseIdx i) := by
  obtain ⟨ha, ho, rfl⟩ := ((C30_read ht addr b).1 l).1 h
  have hlen := listBytes_length ht ho
  have ho' : ∀ x ∈ l.eraseIdx i, ok x := fun x hx => ho x (List.mem_of_mem_eraseIdx hx)
  rw [((C30_read ht addr b').1 (l.eraseIdx i))]
  have hle : i * t.size + t.size ≤ l.length * t.size ↔ i < l.length := by
    rw [← Nat.succ_mul]; exact ⟨fun h => Nat.le_of_mul_le_mul_right h ht.pos, fun h => Nat.mul_le_mul_right _ h⟩
  have key : i < l.length → (memmove (listBytes t l) (i * t.size) (i * t.size + t.size) (l.length * t.size - (i * t.size + t.size))).take
      (l.length * t.size - t.size) = listBytes t (l.eraseIdx i) ∧
      (memmove (listBytes t l) (i * t.size) (i * t.size + t.size) (l.length * t.size - (i * t.size + t.size))).length = l.length * t.size := by
    intro hi
    have e : l = l.take i ++ l[i] :: l.drop (i + 1) := by simp
    have hl1 : (listBytes t (l.take i)).length = i * t.size := by
      rw [listBytes_length ht fun y hy => ho y (List.mem_of_mem_take hy), List.length_take, Nat.min_eq_left (by omega)]
    have hl2 : (t.bytes l[i]).length = t.size := ht.len (ho _ (List.getElem_mem hi))
    have hl3 : (listBytes t (l.drop (i + 1))).length = l.length * t.size - (i * t.size + t.size) := by
      rw [listBytes_length ht fun y hy => ho y (List.mem_of_mem_drop hy), List.length_drop, Nat.sub_mul, Nat.succ_mul]
    have e1 : listBytes t l = listBytes t (l.take i) ++ (t.bytes l[i] ++ listBytes t (l.drop (i + 1))) := by
      conv_lhs => rw [e, listBytes_append, listBytes_cons]
    have ee : l.eraseIdx i = l.take i ++ l.drop (i + 1) := List.eraseIdx_eq_take_drop_succ _ _
    have hle := hle.2 hi
    have hm : memmove (listBytes t l) (i * t.size) (i * t.size + t.size) (l.length * t.size - (i * t.size + t.size)) =
        (listBytes t (l.take i) ++ listBytes t (l.drop (i + 1))) ++ (listBytes t l).drop (i * t.size + (l.length * t.size - (i * t.size + t.size))) := by
      unfold memmove
      rw [← List.append_assoc]
      congr 1
      rw [e1, List.take_append_of_le_length (by omega), List.take_of_length_le (by omega)]
      congr 1
      rw [← List.append_assoc, List.drop_append_of_le_length (by rw [List.length_append]; omega), List.drop_of_length_le (by rw [List.length_append]; omega),
        List.nil_append, List.take_of_length_le (by omega)]
    constructor
    · rw [hm, ee, listBytes_append, List.take_append_of_le_length (by rw [List.length_append]; omega),
        List.take_of_length_le (by rw [List.length_append]; omega)]
    · rw [hm]
      simp only [List.length_append, List.length_drop]
      omega
  simp only [removeFromList, bind_ok, toU64_ok, require_ok, exists_const, pure_ok]
  constructor
  · rintro ⟨_, ⟨rfl, _⟩, _, ⟨rfl, _⟩, hn, _, rfl⟩
    rw [hlen] at hn ⊢
    have hi := hle.1 hn
    obtain ⟨k1, k2⟩ := key hi
    rw [k2]
    exact ⟨hi, ha, ho', k1⟩
  · rintro ⟨hi, _, _, rfl⟩
    have hle := hle.2 hi
    obtain ⟨k1, k2⟩ := key hi
    rw [hlen] at hb ⊢
    refine ⟨_, ⟨rfl, by omega⟩, _, ⟨rfl, by omega⟩, hle, ?_, ?_⟩
    · rw [k2]; omega
    · rw [k2]; exact k1

end

/-- The fields of an LST entry the program assigns to. -/
inductive LstField
  | isInputDisabled | solValue | solValueCalculator
deriving DecidableEq, Repr

/-- Position in the declaration of `LstState`. -/
def LstField.idx : LstField → Nat
  | .isInputDisabled => 0 | .solValue => 4 | .solValueCalculator => 6

def LstField.bits : LstField → Nat
  | .isInputDisabled => 8 | .solValue => 64 | .solValueCalculator => 256

def LstField.assign (s : LstState) (v : Nat) : LstField → LstState
  | .isInputDisabled => { s with isInputDisabled := v }
  | .solValue => { s with solValue := v }
  | .solValueCalculator => { s with solValueCalculator := v }

/-- C30: assigning one field of one entry of the LST list account changes that field of that entry and nothing else. -/
theorem C30_assign_field {addr : Nat} {b : List UInt8} {l : List (LstState × Nat)} (h : tryList lstElem addr b = some l) {i : Nat} {s : LstState} {pad : Nat}
    (hi : l[i]? = some (s, pad)) (f : LstField) {v : Nat} (hv : v < 2 ^ f.bits) :
    tryList lstElem addr (writeElemField lstElem lstFields b i f.idx v) = some (l.set i (f.assign s v, pad)) := by
  obtain ⟨hlt, hget⟩ := List.getElem?_eq_some_iff.1 hi
  obtain ⟨ha, ho, hb⟩ := ((C30_read lstElem_lawful addr b).1 l).1 h
  have hs : LstOk (s, pad) := ho _ (List.mem_of_getElem? hi)
  have hs' : LstOk (f.assign s v, pad) := by
    obtain ⟨⟨a, b, c, d, e, g⟩, k⟩ := hs
    cases f <;> (simp only [LstField.bits] at hv; exact ⟨⟨by assumption, by assumption, by assumption, by assumption, by assumption, by assumption⟩, k⟩)
  have hslice : (b.drop (i * lstElem.size)).take lstElem.size = s.toBytes pad := by
    have hl := h
    unfold tryList at hl
    split at hl; · cases hl
    split at hl; · cases hl
    rename_i h1 _
    injection hl with hl
    have hn : i < b.length / lstElem.size := by
      have := congrArg List.length hl
      simp at this; omega
    have hg : l[i]? = some (lstElem.view ((b.drop (i * lstElem.size)).take lstElem.size)) := by
      rw [← hl]; simp [hn]
    rw [hi] at hg; injection hg with hg
    have hlen : ((b.drop (i * lstElem.size)).take lstElem.size).length = lstElem.size := by
      have : (i + 1) * lstElem.size ≤ b.length := (Nat.le_div_iff_mul_le lstElem_lawful.pos).1 hn
      rw [Nat.succ_mul] at this
      rw [List.length_take, List.length_drop]; omega
    have := lstElem_lawful.bytes_view hlen
    rw [← hg] at this
    exact this.symm
  have e : writeElemField lstElem lstFields b i f.idx v = writeElem lstElem b i (f.assign s v, pad) := by
    unfold writeElemField writeElem
    rw [hslice, LstState.toBytes, writeField_pack (lst_fits.2 hs) C29_sizes.2.2.2.2.2.2.2.1]
    cases f <;> rfl
  rw [e]
  exact C30_assign lstElem_lawful h hlt hs'

end S
