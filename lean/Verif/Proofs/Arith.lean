import Verif.Calculators
import Mathlib.Tactic.Ring
import Mathlib.Tactic.Linarith
/-
Arithmetic of the conversions: floor and ceiling division, and the shape shared by all calculators.
-/
set_option autoImplicit false
namespace S

theorem le_cdiv_mul (a : Nat) {b : Nat} (hb : 0 < b) : a ≤ cdiv a b * b := by
  have h1 := Nat.div_add_mod (a + b - 1) b
  have h2 := Nat.mod_lt (a + b - 1) hb
  unfold cdiv
  rw [Nat.mul_comm]
  omega

theorem cdiv_mul_lt (a : Nat) {b : Nat} (hb : 0 < b) : cdiv a b * b < a + b := by
  have h1 := Nat.div_mul_le_self (a + b - 1) b
  unfold cdiv
  omega

theorem cdiv_le_iff {a b c : Nat} (hb : 0 < b) : cdiv a b ≤ c ↔ a ≤ c * b := by
  constructor
  · intro h; exact (le_cdiv_mul a hb).trans (Nat.mul_le_mul_right b h)
  · intro h
    have := cdiv_mul_lt a hb
    by_contra hc
    have h1 : (c + 1) * b ≤ cdiv a b * b := Nat.mul_le_mul_right b (by omega)
    rw [Nat.add_mul, Nat.one_mul] at h1
    omega

theorem cdiv_mono {a a' b : Nat} (hb : 0 < b) (h : a ≤ a') : cdiv a b ≤ cdiv a' b :=
  (cdiv_le_iff hb).2 (h.trans (le_cdiv_mul a' hb))

theorem le_div {a b c : Nat} (hb : 0 < b) : c ≤ a / b ↔ c * b ≤ a := Nat.le_div_iff_mul_le hb

theorem div_mul_le (a b : Nat) : a / b * b ≤ a := Nat.div_mul_le_self a b

theorem lt_div_mul (a : Nat) {b : Nat} (hb : 0 < b) : a < (a / b + 1) * b := by
  have h1 := Nat.div_add_mod a b
  have h2 := Nat.mod_lt a hb
  rw [Nat.add_mul, Nat.one_mul, Nat.mul_comm]
  omega

theorem div_lt_mul {a b c : Nat} (hb : 0 < b) : a / b < c ↔ a < c * b := Nat.div_lt_iff_lt_mul hb

/-- A conversion `f` and the two ends of the range of its inverse. -/
structure IsConv (f rmin rmax : Nat → Nat) : Prop where
  fmono : ∀ {a b}, a ≤ b → f a ≤ f b
  minMono : ∀ {a b}, a ≤ b → rmin a ≤ rmin b
  maxMono : ∀ {a b}, a ≤ b → rmax a ≤ rmax b
  zero : f 0 = 0
  /-- the minimum of the inverse is worth no more -/
  down : ∀ y, f (rmin y) ≤ y
  /-- the maximum of the inverse is worth no less -/
  up : ∀ y, y ≤ f (rmax y)
  backMin : ∀ a, rmin (f a) ≤ a
  backMax : ∀ a, a ≤ rmax (f a)

theorem IsConv.id : IsConv (fun x => x) (fun x => x) (fun x => x) where
  fmono h := h
  minMono h := h
  maxMono h := h
  zero := rfl
  down y := Nat.le_refl y
  up y := Nat.le_refl y
  backMin y := Nat.le_refl y
  backMax y := Nat.le_refl y

/-- `FloorDiv(U64Ratio{n, d})`. -/
theorem IsConv.floor {n d : Nat} (hn : 0 < n) (hd : 0 < d) :
    IsConv (fun x => x * n / d) (fun y => d * y / n) (fun y => cdiv (d * (y + 1)) n) where
  fmono h := Nat.div_le_div_right (Nat.mul_le_mul_right n h)
  minMono h := Nat.div_le_div_right (Nat.mul_le_mul_left d h)
  maxMono h := cdiv_mono hn (Nat.mul_le_mul_left d (Nat.add_le_add_right h 1))
  zero := by simp
  down y := by
    have h := div_mul_le (d * y) n
    have : d * y / n * n / d ≤ d * y / d := Nat.div_le_div_right h
    rwa [Nat.mul_div_cancel_left _ hd] at this
  up y := by
    rw [le_div hd]
    have h := le_cdiv_mul (d * (y + 1)) hn
    have : y * d ≤ d * (y + 1) := by rw [Nat.mul_comm]; exact Nat.mul_le_mul_left d (by omega)
    exact this.trans h
  backMin a := by
    have h := div_mul_le (a * n) d
    have : d * (a * n / d) / n ≤ a * n / n := Nat.div_le_div_right (by rw [Nat.mul_comm]; exact h)
    rwa [Nat.mul_div_cancel _ hn] at this
  backMax a := by
    have h := lt_div_mul (a * n) hd
    have h2 := le_cdiv_mul (d * (a * n / d + 1)) hn
    have h3 : a * n < cdiv (d * (a * n / d + 1)) n * n := by
      rw [Nat.mul_comm d] at h2 ⊢; omega
    exact (Nat.lt_of_mul_lt_mul_right h3).le

/-- The amount after a `CeilDiv` fee of `n/d` is a floor conversion. -/
theorem ceilFee_after {n d x : Nat} (hn : n < d) : x - cdiv (x * n) d = x * (d - n) / d := by
  have hd : 0 < d := by omega
  have h1 := le_cdiv_mul (x * n) hd
  have h2 := cdiv_mul_lt (x * n) hd
  have h4 : x * (d - n) + x * n = x * d := by rw [← Nat.mul_add]; congr 1; omega
  have h3 : cdiv (x * n) d ≤ x := (cdiv_le_iff hd).2 (by omega)
  symm
  apply (Nat.div_eq_iff hd).2
  have h5 : (x - cdiv (x * n) d) * d + cdiv (x * n) d * d = x * d := by rw [← Nat.add_mul]; congr 1; omega
  omega

/-- The amount after a `FloorDiv` fee of `n/d` is a ceiling conversion. -/
theorem floorFee_after {n d x : Nat} (hn : n < d) : x - x * n / d = cdiv (x * (d - n)) d := by
  have hd : 0 < d := by omega
  have h1 := div_mul_le (x * n) d
  have h2 := lt_div_mul (x * n) hd
  have h4 : x * (d - n) + x * n = x * d := by rw [← Nat.mul_add]; congr 1; omega
  have h3 : x * n / d ≤ x := by
    rw [← Nat.lt_add_one_iff, div_lt_mul hd, Nat.add_mul]; omega
  have h5 : (x - x * n / d) * d + x * n / d * d = x * d := by rw [← Nat.add_mul]; congr 1; omega
  rw [Nat.add_mul, Nat.one_mul] at h2
  have e1 := le_cdiv_mul (x * (d - n)) hd
  have e2 := cdiv_mul_lt (x * (d - n)) hd
  apply Nat.le_antisymm
  · by_contra hc
    have : (cdiv (x * (d - n)) d + 1) * d ≤ (x - x * n / d) * d := Nat.mul_le_mul_right d (by omega)
    rw [Nat.add_mul, Nat.one_mul] at this
    omega
  · rw [cdiv_le_iff hd]; omega

/-- Ceiling conversion, with the inverse of a `FloorDiv` fee. -/
theorem IsConv.ceil {n d : Nat} (hn : 0 < n) (hd : 0 < d) :
    IsConv (fun x => cdiv (x * n) d) (fun y => d * (y - 1) / n) (fun y => cdiv (d * y) n) where
  fmono h := cdiv_mono hd (Nat.mul_le_mul_right n h)
  minMono h := Nat.div_le_div_right (Nat.mul_le_mul_left d (Nat.sub_le_sub_right h 1))
  maxMono h := cdiv_mono hn (Nat.mul_le_mul_left d h)
  zero := by rw [Nat.zero_mul]; exact Nat.le_zero.1 ((cdiv_le_iff hd).2 (by simp))
  down y := by
    have h := div_mul_le (d * (y - 1)) n
    rw [cdiv_le_iff hd]
    have : d * (y - 1) ≤ y * d := by rw [Nat.mul_comm]; exact Nat.mul_le_mul_right d (by omega)
    exact h.trans this
  up y := by
    have h := le_cdiv_mul (d * y) hn
    have h2 := le_cdiv_mul (cdiv (d * y) n * n) hd
    have h3 : y * d ≤ cdiv (cdiv (d * y) n * n) d * d := by rw [Nat.mul_comm]; exact h.trans h2
    exact Nat.le_of_mul_le_mul_right h3 hd
  backMin a := by
    have h := cdiv_mul_lt (a * n) hd
    rw [← Nat.lt_add_one_iff, div_lt_mul hn]
    have : d * (cdiv (a * n) d - 1) ≤ cdiv (a * n) d * d - d := by
      rw [Nat.mul_comm, Nat.sub_mul, Nat.one_mul]
    have h2 : a * n < (a + 1) * n := by rw [Nat.add_mul, Nat.one_mul]; omega
    omega
  backMax a := by
    have h := le_cdiv_mul (a * n) hd
    have h2 := le_cdiv_mul (d * cdiv (a * n) d) hn
    have h3 : a * n ≤ cdiv (d * cdiv (a * n) d) n * n := by rw [Nat.mul_comm d] at h2 ⊢; exact h.trans h2
    exact Nat.le_of_mul_le_mul_right h3 hn

theorem IsConv.comp {f rmin rmax g smin smax : Nat → Nat} (hf : IsConv f rmin rmax) (hg : IsConv g smin smax) :
    IsConv (fun x => g (f x)) (fun y => rmin (smin y)) (fun y => rmax (smax y)) where
  fmono h := hg.fmono (hf.fmono h)
  minMono h := hf.minMono (hg.minMono h)
  maxMono h := hf.maxMono (hg.maxMono h)
  zero := by rw [hf.zero, hg.zero]
  down y := (hg.fmono (hf.down _)).trans (hg.down y)
  up y := (hg.up y).trans (hg.fmono (hf.up _))
  backMin a := (hf.minMono (hg.backMin _)).trans (hf.backMin a)
  backMax a := (hf.backMax a).trans (hf.maxMono (hg.backMax _))

end S
