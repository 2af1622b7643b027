import Verif.Proofs.CalcLaws
/-
When the calculators answer. Used by C54.
-/
set_option autoImplicit false
namespace S

theorem feeNew_ok {n d : Nat} {u : Unit} : feeNew n d = .ok u ↔ n ≤ d := by
  simp [feeNew, require_ok]

theorem AnyCalc.lstToSol_u64 {L : RatioLib} {c : AnyCalc} (h : c.Usable) {a : Nat} {r : Range} (ha : a < U64)
    (hr : (c.calculator L).lstToSol a = .ok r) : r.min < U64 ∧ r.max < U64 := by
  cases c with
  | wsol => cases pure_ok.1 hr; exact ⟨ha, ha⟩
  | lido c =>
    simp only [AnyCalc.calculator, LidoCalc.calculator, bind_ok, floorApply_ok' h.2, pure_ok] at hr
    obtain ⟨_, ⟨rfl, hb⟩, rfl⟩ := hr; exact ⟨hb, hb⟩
  | spl c =>
    simp only [AnyCalc.calculator, SplCalc.calculator, bind_ok, floorApply_ok' h.2.1, pure_ok] at hr
    obtain ⟨_, _, _, _, _, ⟨rfl, hb⟩, rfl⟩ := hr; exact ⟨hb, hb⟩
  | marinade c =>
    simp only [AnyCalc.calculator, MarinadeCalc.calculator, bind_ok, floorApply_ok' h.2.1, floorFeeApply, subU64_ok, pure_ok] at hr
    obtain ⟨n, hn, _, ⟨rfl, hb⟩, _, _, _, ⟨_, ⟨rfl, hle⟩, rfl⟩, rfl⟩ := hr
    simp only [Range.single]
    omega

theorem ceilFeeReverse_u64 {L : RatioLib} {n d y : Nat} {r : Range} (hnd : n = 0 ∨ n < d) (hy : y < U64) (h : ceilFeeReverse L n d y = .ok r) :
    r.min < U64 ∧ r.max < U64 := by
  unfold ceilFeeReverse at h
  split at h
  · cases pure_ok.1 h; exact ⟨hy, hy⟩
  · split at h
    · omega
    · simp only [bind_ok, toU64_ok, pure_ok] at h
      obtain ⟨_, ⟨rfl, h1⟩, _, ⟨rfl, h2⟩, rfl⟩ := h
      exact ⟨h1, h2⟩

theorem floorReverse_u64 {L : RatioLib} {n d y : Nat} {r : Range} (hn : n ≠ 0) (hd : d ≠ 0) (h : floorReverse L n d y = .ok r) :
    r.min < U64 ∧ r.max < U64 := by
  obtain ⟨rfl, h1, h2⟩ := (floorReverse_ok hn hd).1 h; exact ⟨h1, h2⟩

theorem AnyCalc.solToLst_u64 {L : RatioLib} {c : AnyCalc} (h : c.Usable) {v : Nat} {r : Range} (hv : v < U64)
    (hr : (c.calculator L).solToLst v = .ok r) : r.min < U64 ∧ r.max < U64 := by
  cases c with
  | wsol => cases pure_ok.1 hr; exact ⟨hv, hv⟩
  | lido c => exact floorReverse_u64 h.1 h.2 hr
  | spl c =>
    simp only [AnyCalc.calculator, SplCalc.calculator, bind_ok, rangeNew_ok] at hr
    obtain ⟨r0, e0, _, _, r1, e1, r2, e2, rfl, _⟩ := hr
    have h0 := floorReverse_u64 h.1 h.2.1 e0
    exact ⟨(ceilFeeReverse_u64 h.2.2 h0.1 e1).1, (ceilFeeReverse_u64 h.2.2 h0.2 e2).2⟩
  | marinade c =>
    simp only [AnyCalc.calculator, MarinadeCalc.calculator, bind_ok, rangeNew_ok] at hr
    obtain ⟨_, _, r0, e0, n, hn, r1, e1, r2, e2, rfl, _⟩ := hr
    have hn0 : n ≠ 0 := by rintro rfl; exact h.1 hn
    exact ⟨(floorReverse_u64 hn0 h.2.1 e1).1, (floorReverse_u64 hn0 h.2.1 e2).2⟩

theorem div_mono {a b n d : Nat} (h : a ≤ b) : a * n / d ≤ b * n / d := Nat.div_le_div_right (Nat.mul_le_mul_right n h)

theorem splFee_mono {n d a b : Nat} (h : a ≤ b) : splFee n d a ≤ splFee n d b := by
  unfold splFee
  split
  · exact h
  · exact div_mono h

/-- A usable calculator that values a balance values every smaller one. -/
theorem AnyCalc.lstToSol_down {L : RatioLib} {c : AnyCalc} (h : c.Usable) {a b : Nat} (hab : a ≤ b) {r : Range}
    (hr : (c.calculator L).lstToSol b = .ok r) : (c.calculator L).lstToSol a = .ok (Range.single (c.f a)) := by
  have key : ∃ r', (c.calculator L).lstToSol a = .ok r' := by
    cases c with
    | wsol => exact ⟨_, rfl⟩
    | lido c =>
      simp only [AnyCalc.calculator, LidoCalc.calculator, bind_ok, floorApply_ok' h.2, pure_ok] at hr ⊢
      obtain ⟨_, ⟨rfl, hb⟩, rfl⟩ := hr
      exact ⟨_, _, ⟨rfl, Nat.lt_of_le_of_lt (div_mono hab) hb⟩, rfl⟩
    | spl c =>
      simp only [AnyCalc.calculator, SplCalc.calculator, bind_ok, ceilFeeApply_ok h.2.2, floorApply_ok' h.2.1, pure_ok] at hr ⊢
      obtain ⟨_, hf, _, rfl, _, ⟨rfl, hb⟩, rfl⟩ := hr
      exact ⟨_, _, hf, _, rfl, _, ⟨rfl, Nat.lt_of_le_of_lt (div_mono (splFee_mono hab)) hb⟩, rfl⟩
    | marinade c =>
      simp only [AnyCalc.calculator, MarinadeCalc.calculator, bind_ok, floorApply_ok' h.2.1, floorFeeApply, subU64_ok, pure_ok] at hr ⊢
      obtain ⟨n, hn, _, ⟨rfl, hb⟩, _, hf, _, ⟨_, ⟨rfl, hle⟩, rfl⟩, rfl⟩ := hr
      refine ⟨_, n, hn, _, ⟨rfl, Nat.lt_of_le_of_lt (div_mono hab) hb⟩, _, hf, _, ⟨_, ⟨rfl, ?_⟩, rfl⟩, rfl⟩
      unfold floorFee
      split
      · exact Nat.zero_le _
      · refine Nat.div_le_of_le_mul ?_
        rw [Nat.mul_comm]
        exact Nat.mul_le_mul_right _ (Nat.le_of_lt h.2.2)
  obtain ⟨r', hr'⟩ := key
  rw [hr', (AnyCalc.is L h).lstToSol hr']

end S
