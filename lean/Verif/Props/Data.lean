import Verif.IxData
import Verif.Example
/-
C38: instruction data is unambiguous.
-/
set_option autoImplicit false
namespace S

/-- The arguments fit the integer types declared for them
(generated/s_controller_interface/src/instructions.rs, the `*IxArgs` structs). -/
def Ix.Wf : Ix → Prop
  | .syncSolValue i => i < 2 ^ 32
  | .swapExactIn a => a.srcLstValueCalcAccs < 2 ^ 8 ∧ a.dstLstValueCalcAccs < 2 ^ 8 ∧ a.srcLstIndex < 2 ^ 32 ∧
      a.dstLstIndex < 2 ^ 32 ∧ a.minAmountOut < 2 ^ 64 ∧ a.amount < 2 ^ 64
  | .swapExactOut a => a.srcLstValueCalcAccs < 2 ^ 8 ∧ a.dstLstValueCalcAccs < 2 ^ 8 ∧ a.srcLstIndex < 2 ^ 32 ∧
      a.dstLstIndex < 2 ^ 32 ∧ a.maxAmountIn < 2 ^ 64 ∧ a.amount < 2 ^ 64
  | .addLiquidity a => a.lstValueCalcAccs < 2 ^ 8 ∧ a.lstIndex < 2 ^ 32 ∧ a.lstAmount < 2 ^ 64 ∧ a.minLpOut < 2 ^ 64
  | .removeLiquidity a => a.lstValueCalcAccs < 2 ^ 8 ∧ a.lstIndex < 2 ^ 32 ∧ a.lpTokenAmount < 2 ^ 64 ∧
      a.minLstOut < 2 ^ 64
  | .disableLstInput i => i < 2 ^ 32
  | .enableLstInput i => i < 2 ^ 32
  | .removeLst i => i < 2 ^ 32
  | .setSolValueCalculator i => i < 2 ^ 32
  | .setProtocolFee a => (∀ n ∈ a.newTradingProtocolFeeBps, n < 2 ^ 16) ∧ (∀ n ∈ a.newLpProtocolFeeBps, n < 2 ^ 16)
  | .withdrawProtocolFees n => n < 2 ^ 64
  | .removeDisablePoolAuthority i => i < 2 ^ 32
  | .startRebalance a => a.srcLstCalcAccs < 2 ^ 8 ∧ a.srcLstIndex < 2 ^ 32 ∧ a.dstLstIndex < 2 ^ 32 ∧
      a.amount < 2 ^ 64 ∧ a.minStartingSrcLst < 2 ^ 64 ∧ a.maxStartingDstLst < 2 ^ 64
  | _ => True

theorem ofLE_toLE (k n : Nat) (h : n < 256 ^ k) : ofLE (toLE k n) = n := by
  induction k generalizing n with
  | zero => simp at h; subst h; rfl
  | succ k ih =>
    have h1 : n / 256 < 256 ^ k := by
      rw [Nat.div_lt_iff_lt_mul (by decide)]; rwa [Nat.pow_succ] at h
    simp only [toLE, ofLE, ih _ h1, UInt8.toNat_ofNat']
    have : n % 256 % 256 = n % 256 := Nat.mod_mod _ _
    have h2 : (2 : Nat) ^ 8 = 256 := by decide
    rw [h2, this]; omega

theorem toLE_length (k n : Nat) : (toLE k n).length = k := by
  induction k generalizing n with
  | zero => rfl
  | succ k ih => simp [toLE, ih]

theorem ofLE_lt (bs : List UInt8) : ofLE bs < 256 ^ bs.length := by
  induction bs with
  | nil => simp [ofLE]
  | cons b bs ih =>
    have := b.toNat_lt
    simp only [ofLE, List.length_cons, Nat.pow_succ]; omega

theorem toLE_ofLE (bs : List UInt8) : toLE bs.length (ofLE bs) = bs := by
  induction bs with
  | nil => rfl
  | cons b bs ih =>
    have hb := b.toNat_lt
    simp only [List.length_cons, toLE, ofLE]
    have h1 : (b.toNat + 256 * ofLE bs) % 256 = b.toNat := by omega
    have h2 : (b.toNat + 256 * ofLE bs) / 256 = ofLE bs := by omega
    rw [h1, h2, ih]; simp

theorem readLE_ok {k n : Nat} {buf r : List UInt8} :
    readLE k buf = .ok (n, r) ↔ n < 256 ^ k ∧ buf = toLE k n ++ r := by
  unfold readLE
  split
  · rename_i h
    constructor
    · intro h'; injection h' with h'; injection h' with h1 h2; subst h1 h2
      have hl : (buf.take k).length = k := by simp [h]
      refine ⟨by have := ofLE_lt (buf.take k); rwa [hl] at this, ?_⟩
      have e := toLE_ofLE (buf.take k)
      rw [hl] at e; rw [e, List.take_append_drop]
    · rintro ⟨hn, rfl⟩
      rw [List.take_left' (toLE_length k n), List.drop_left' (toLE_length k n), ofLE_toLE k n hn]
  · rename_i h
    constructor
    · intro h'; cases h'
    · rintro ⟨_, rfl⟩; exact absurd (by simp [toLE_length]) h

theorem readOpt_ok {k : Nat} {o : Option Nat} {buf r : List UInt8} :
    readOpt k buf = .ok (o, r) ↔ (∀ n ∈ o, n < 256 ^ k) ∧ buf = optBytes k o ++ r := by
  unfold readOpt
  split
  · cases o <;> simp [optBytes]
  · rename_i t b
    split
    · rename_i ht; subst ht
      cases o with
      | none => simp [optBytes]
      | some x => simp [optBytes]
    · split
      · rename_i ht; subst ht
        simp only [bind_ok, Prod.exists, readLE_ok, pure_ok, Prod.mk.injEq]
        cases o with
        | none => simp [optBytes]
        | some x =>
          simp [optBytes]
      · rename_i h0 h1
        cases o <;> simp [optBytes, h0, h1]

/-- `decodeIx` accepts exactly the byte strings starting with the encoding of an instruction whose arguments fit their
types, and returns that instruction. -/
theorem decodeIx_iff {buf : List UInt8} {ix : Ix} :
    decodeIx buf = .ok ix ↔ ix.Wf ∧ ∃ rest, buf = ix.encode ++ rest := by
  have p8 : (256 : Nat) ^ 8 = 2 ^ 64 := by decide
  have p4 : (256 : Nat) ^ 4 = 2 ^ 32 := by decide
  have p2 : (256 : Nat) ^ 2 = 2 ^ 16 := by decide
  have p1 : (256 : Nat) ^ 1 = 2 ^ 8 := by decide
  constructor
  · intro h
    unfold decodeIx at h
    split at h
    · cases h
    · rename_i d r
      split at h
      all_goals first
        | (rename_i hd
           have hd' := congrArg UInt8.ofNat hd
           rw [UInt8.ofNat_toNat] at hd'
           subst hd'
           simp only [bind_ok, Prod.exists, readLE_ok, readOpt_ok, pure_ok, p8, p4, p2, p1] at h)
        | cases h
      case _ => obtain ⟨a, r, ⟨h1, rfl⟩, rfl⟩ := h; exact ⟨h1, r, rfl⟩
      case _ =>
        obtain ⟨a, _, ⟨h1, rfl⟩, b, _, ⟨h2, rfl⟩, c, _, ⟨h3, rfl⟩, d, _, ⟨h4, rfl⟩, e, _, ⟨h5, rfl⟩, f, r, ⟨h6, rfl⟩, rfl⟩ := h
        exact ⟨⟨h1, h2, h3, h4, h5, h6⟩, r, by simp [Ix.encode, Ix.argBytes, Ix.discm, List.append_assoc]⟩
      case _ =>
        obtain ⟨a, _, ⟨h1, rfl⟩, b, _, ⟨h2, rfl⟩, c, _, ⟨h3, rfl⟩, d, _, ⟨h4, rfl⟩, e, _, ⟨h5, rfl⟩, f, r, ⟨h6, rfl⟩, rfl⟩ := h
        exact ⟨⟨h1, h2, h3, h4, h5, h6⟩, r, by simp [Ix.encode, Ix.argBytes, Ix.discm, List.append_assoc]⟩
      case _ =>
        obtain ⟨a, _, ⟨h1, rfl⟩, b, _, ⟨h2, rfl⟩, c, _, ⟨h3, rfl⟩, d, r, ⟨h4, rfl⟩, rfl⟩ := h
        exact ⟨⟨h1, h2, h3, h4⟩, r, by simp [Ix.encode, Ix.argBytes, Ix.discm, List.append_assoc]⟩
      case _ =>
        obtain ⟨a, _, ⟨h1, rfl⟩, b, _, ⟨h2, rfl⟩, c, _, ⟨h3, rfl⟩, d, r, ⟨h4, rfl⟩, rfl⟩ := h
        exact ⟨⟨h1, h2, h3, h4⟩, r, by simp [Ix.encode, Ix.argBytes, Ix.discm, List.append_assoc]⟩
      case _ => obtain ⟨a, r, ⟨h1, rfl⟩, rfl⟩ := h; exact ⟨h1, r, rfl⟩
      case _ => obtain ⟨a, r, ⟨h1, rfl⟩, rfl⟩ := h; exact ⟨h1, r, rfl⟩
      case _ => subst h; exact ⟨trivial, r, rfl⟩
      case _ => obtain ⟨a, r, ⟨h1, rfl⟩, rfl⟩ := h; exact ⟨h1, r, rfl⟩
      case _ => obtain ⟨a, r, ⟨h1, rfl⟩, rfl⟩ := h; exact ⟨h1, r, rfl⟩
      case _ => subst h; exact ⟨trivial, r, rfl⟩
      case _ =>
        obtain ⟨a, _, ⟨h1, rfl⟩, b, r, ⟨h2, rfl⟩, rfl⟩ := h
        exact ⟨⟨h1, h2⟩, r, by simp [Ix.encode, Ix.argBytes, Ix.discm, List.append_assoc]⟩
      case _ => subst h; exact ⟨trivial, r, rfl⟩
      case _ => subst h; exact ⟨trivial, r, rfl⟩
      case _ => obtain ⟨a, r, ⟨h1, rfl⟩, rfl⟩ := h; exact ⟨h1, r, rfl⟩
      case _ => subst h; exact ⟨trivial, r, rfl⟩
      case _ => obtain ⟨a, r, ⟨h1, rfl⟩, rfl⟩ := h; exact ⟨h1, r, rfl⟩
      case _ => subst h; exact ⟨trivial, r, rfl⟩
      case _ => subst h; exact ⟨trivial, r, rfl⟩
      case _ =>
        obtain ⟨a, _, ⟨h1, rfl⟩, b, _, ⟨h2, rfl⟩, c, _, ⟨h3, rfl⟩, d, _, ⟨h4, rfl⟩, e, _, ⟨h5, rfl⟩, f, r, ⟨h6, rfl⟩, rfl⟩ := h
        exact ⟨⟨h1, h2, h3, h4, h5, h6⟩, r, by simp [Ix.encode, Ix.argBytes, Ix.discm, List.append_assoc]⟩
      case _ => subst h; exact ⟨trivial, r, rfl⟩
      case _ => subst h; exact ⟨trivial, r, rfl⟩
      case _ => subst h; exact ⟨trivial, r, rfl⟩
  · rintro ⟨hw, rest, rfl⟩
    have q : ∀ {k n : Nat} {r : List UInt8}, n < 256 ^ k → readLE k (toLE k n ++ r) = .ok (n, r) :=
      fun h => readLE_ok.2 ⟨h, rfl⟩
    have q' : ∀ {k : Nat} {o : Option Nat} {r : List UInt8}, (∀ n ∈ o, n < 256 ^ k) →
        readOpt k (optBytes k o ++ r) = .ok (o, r) := fun h => readOpt_ok.2 ⟨h, rfl⟩
    cases ix <;> simp only [Ix.Wf, ← p8, ← p4, ← p2, ← p1] at hw <;>
      simp only [decodeIx, Ix.encode, Ix.discm, Ix.argBytes, List.cons_append, List.append_assoc]
    case syncSolValue i => exact bind_ok.2 ⟨_, q hw, rfl⟩
    case swapExactIn a =>
      obtain ⟨h1, h2, h3, h4, h5, h6⟩ := hw
      exact bind_ok.2 ⟨_, q h1, bind_ok.2 ⟨_, q h2, bind_ok.2 ⟨_, q h3, bind_ok.2 ⟨_, q h4, bind_ok.2 ⟨_, q h5,
        bind_ok.2 ⟨_, q h6, rfl⟩⟩⟩⟩⟩⟩
    case swapExactOut a =>
      obtain ⟨h1, h2, h3, h4, h5, h6⟩ := hw
      exact bind_ok.2 ⟨_, q h1, bind_ok.2 ⟨_, q h2, bind_ok.2 ⟨_, q h3, bind_ok.2 ⟨_, q h4, bind_ok.2 ⟨_, q h5,
        bind_ok.2 ⟨_, q h6, rfl⟩⟩⟩⟩⟩⟩
    case addLiquidity a =>
      obtain ⟨h1, h2, h3, h4⟩ := hw
      exact bind_ok.2 ⟨_, q h1, bind_ok.2 ⟨_, q h2, bind_ok.2 ⟨_, q h3, bind_ok.2 ⟨_, q h4, rfl⟩⟩⟩⟩
    case removeLiquidity a =>
      obtain ⟨h1, h2, h3, h4⟩ := hw
      exact bind_ok.2 ⟨_, q h1, bind_ok.2 ⟨_, q h2, bind_ok.2 ⟨_, q h3, bind_ok.2 ⟨_, q h4, rfl⟩⟩⟩⟩
    case disableLstInput i => exact bind_ok.2 ⟨_, q hw, rfl⟩
    case enableLstInput i => exact bind_ok.2 ⟨_, q hw, rfl⟩
    case removeLst i => exact bind_ok.2 ⟨_, q hw, rfl⟩
    case setSolValueCalculator i => exact bind_ok.2 ⟨_, q hw, rfl⟩
    case setProtocolFee a => exact bind_ok.2 ⟨_, q' hw.1, bind_ok.2 ⟨_, q' hw.2, rfl⟩⟩
    case withdrawProtocolFees n => exact bind_ok.2 ⟨_, q hw, rfl⟩
    case removeDisablePoolAuthority i => exact bind_ok.2 ⟨_, q hw, rfl⟩
    case startRebalance a =>
      obtain ⟨h1, h2, h3, h4, h5, h6⟩ := hw
      exact bind_ok.2 ⟨_, q h1, bind_ok.2 ⟨_, q h2, bind_ok.2 ⟨_, q h3, bind_ok.2 ⟨_, q h4, bind_ok.2 ⟨_, q h5,
        bind_ok.2 ⟨_, q h6, rfl⟩⟩⟩⟩⟩⟩
    all_goals rfl

/-- C38, round trip: an instruction with arguments within their types serializes to bytes that decode to itself. -/
theorem C38_roundtrip (ix : Ix) (h : ix.Wf) : decodeIx ix.encode = .ok ix :=
  decodeIx_iff.2 ⟨h, [], by simp⟩

/-- C38, decoded arguments are within their types, and the data starts with the encoding of the result. -/
theorem C38_decoded {buf : List UInt8} {ix : Ix} (h : decodeIx buf = .ok ix) :
    ix.Wf ∧ ∃ rest, buf = ix.encode ++ rest := decodeIx_iff.1 h

/-- C38, no two different instructions share an encoding, even followed by other bytes. -/
theorem C38_unambiguous {ix ix' : Ix} {rest rest' : List UInt8} (h : ix.Wf) (h' : ix'.Wf)
    (e : ix.encode ++ rest = ix'.encode ++ rest') : ix = ix' := by
  have a : decodeIx (ix.encode ++ rest) = .ok ix := decodeIx_iff.2 ⟨h, rest, rfl⟩
  have b : decodeIx (ix.encode ++ rest) = .ok ix' := decodeIx_iff.2 ⟨h', rest', e⟩
  rw [a] at b; injection b

/-- C38, truncated data (a proper prefix of an encoding) is rejected. -/
theorem C38_truncated {ix : Ix} (h : ix.Wf) {buf : List UInt8} {b : UInt8} {t : List UInt8}
    (e : ix.encode = buf ++ b :: t) : ∃ err, decodeIx buf = .error err := by
  cases hd : decodeIx buf with
  | error err => exact ⟨err, rfl⟩
  | ok ix' =>
    obtain ⟨hw, rest, rfl⟩ := decodeIx_iff.1 hd
    have : ix = ix' := C38_unambiguous (rest := []) (rest' := rest ++ b :: t) h hw (by simp [e])
    subst this
    have := congrArg List.length e
    simp at this

/-- C38, unknown discriminators and empty data are rejected. -/
theorem C38_unknown (d : UInt8) (rest : List UInt8) (h : 22 < d.toNat) :
    (∃ err, decodeIx (d :: rest) = .error err) ∧ ∃ err, decodeIx [] = .error err := by
  refine ⟨?_, .decode, rfl⟩
  cases hd : decodeIx (d :: rest) with
  | error err => exact ⟨err, rfl⟩
  | ok ix =>
    obtain ⟨_, r, e⟩ := decodeIx_iff.1 hd
    simp only [Ix.encode, List.cons_append, List.cons.injEq] at e
    have : ix.discm.toNat ≤ 22 := by cases ix <;> simp [Ix.discm]
    rw [← e.1] at this; omega

/-- C38, data that does not decode has no effect: the call fails, so the transaction changes nothing. -/
theorem C38_no_effect {cfg : Cfg} (L : RatioLib) (tx : TxInfo) (w : World) (c : Call cfg) {err : Err}
    (h : decodeIx c.data = .error err) : ∃ e, c.run L tx w = .error e := by
  cases hr : c.run L tx w with
  | error e => exact ⟨e, rfl⟩
  | ok w' =>
    simp only [Call.run, processInstruction, bind_ok, require_ok, exists_const] at hr
    obtain ⟨_, _, ix, h2, _⟩ := hr
    rw [h] at h2; cases h2

-- A non-trivial instruction, its bytes, a truncation and an unknown discriminator.
example : (Ix.swapExactIn ⟨1, 2, 3, 4, 500, 70000⟩).Wf ∧
    (Ix.swapExactIn ⟨1, 2, 3, 4, 500, 70000⟩).encode =
      [1, 1, 2, 3, 0, 0, 0, 4, 0, 0, 0, 244, 1, 0, 0, 0, 0, 0, 0, 112, 17, 1, 0, 0, 0, 0, 0] := by
  exact ⟨by simp [Ix.Wf], by decide⟩
example : decodeIx [1, 1, 2, 3, 0, 0, 0, 4, 0, 0, 0, 244, 1, 0, 0, 0, 0, 0, 0, 112, 17, 1, 0, 0, 0, 0] = .error .decode := rfl
example : (22 : Nat) < (23 : UInt8).toNat := by decide

end S
