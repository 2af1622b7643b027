import Verif.Proofs.Arith
/-
Every calculator of the repository is a conversion (`IsConv`) when its pool is usable: non-zero supply and balance, fee below
100%.
-/
set_option autoImplicit false
namespace S

/-- The calculator answers with `f`, `rmin`, `rmax` whenever it answers. -/
structure Calculator.Is (c : Calculator) (f rmin rmax : Nat → Nat) : Prop where
  lstToSol : ∀ {a r}, c.lstToSol a = .ok r → r = Range.single (f a)
  solToLst : ∀ {v r}, c.solToLst v = .ok r → r = ⟨rmin v, rmax v⟩

/-- The stake pool data are usable: there are tokens and lamports, and the withdrawal fee is below 100%. -/
def AnyCalc.Usable : AnyCalc → Prop
  | .lido c => c.solBalance ≠ 0 ∧ c.stSolSupply ≠ 0
  | .spl c => c.totalLamports ≠ 0 ∧ c.poolTokenSupply ≠ 0 ∧ (c.feeNum = 0 ∨ c.feeNum < c.feeDenom)
  | .marinade c => c.totalVirtualStaked ≠ .ok 0 ∧ c.msolSupply ≠ 0 ∧ c.withdrawStakeAccountFeeCents < MAX_BP_CENTS
  | .wsol => True

theorem floorApply_ok' {L : RatioLib} {n d x r : Nat} (hd : d ≠ 0) : floorApply L n d x = .ok r ↔ r = x * n / d ∧ x * n / d < U64 := by
  rw [floorApply, if_neg hd, toU64_ok]

theorem floorReverse_ok {L : RatioLib} {n d y : Nat} {r : Range} (hn : n ≠ 0) (hd : d ≠ 0) :
    floorReverse L n d y = .ok r ↔ r = ⟨d * y / n, cdiv (d * (y + 1)) n⟩ ∧ d * y / n < U64 ∧ cdiv (d * (y + 1)) n < U64 := by
  rw [floorReverse, if_neg (by simp [hn, hd])]
  simp only [bind_ok, toU64_ok, pure_ok]
  constructor
  · rintro ⟨_, ⟨rfl, h1⟩, _, ⟨rfl, h2⟩, rfl⟩; exact ⟨rfl, h1, h2⟩
  · rintro ⟨rfl, h1, h2⟩; exact ⟨_, ⟨rfl, h1⟩, _, ⟨rfl, h2⟩, rfl⟩

/-- LST after the SPL withdrawal fee, and its inverse. -/
def splFee (n d x : Nat) : Nat := if n = 0 then x else x * (d - n) / d
def splFeeMin (n d y : Nat) : Nat := if n = 0 then y else d * y / (d - n)
def splFeeMax (n d y : Nat) : Nat := if n = 0 then y else cdiv (d * (y + 1)) (d - n)

theorem splFee_conv {n d : Nat} (h : n = 0 ∨ n < d) : IsConv (splFee n d) (splFeeMin n d) (splFeeMax n d) := by
  by_cases hn : n = 0
  · have e1 : splFee n d = fun x => x := by funext x; simp [splFee, hn]
    have e2 : splFeeMin n d = fun x => x := by funext x; simp [splFeeMin, hn]
    have e3 : splFeeMax n d = fun x => x := by funext x; simp [splFeeMax, hn]
    rw [e1, e2, e3]; exact IsConv.id
  · have hd : n < d := by omega
    have e1 : splFee n d = fun x => x * (d - n) / d := by funext x; simp [splFee, hn]
    have e2 : splFeeMin n d = fun y => d * y / (d - n) := by funext x; simp [splFeeMin, hn]
    have e3 : splFeeMax n d = fun y => cdiv (d * (y + 1)) (d - n) := by funext x; simp [splFeeMax, hn]
    rw [e1, e2, e3]; exact IsConv.floor (by omega) (by omega)

/-- Lamports after the Marinade withdrawal fee, and its inverse. -/
def mndeFee (n x : Nat) : Nat := if n = 0 then x else cdiv (x * (MAX_BP_CENTS - n)) MAX_BP_CENTS
def mndeFeeMin (n y : Nat) : Nat := if n = 0 then y else MAX_BP_CENTS * (y - 1) / (MAX_BP_CENTS - n)
def mndeFeeMax (n y : Nat) : Nat := if n = 0 then y else cdiv (MAX_BP_CENTS * y) (MAX_BP_CENTS - n)

theorem mndeFee_conv {n : Nat} (h : n < MAX_BP_CENTS) : IsConv (mndeFee n) (mndeFeeMin n) (mndeFeeMax n) := by
  by_cases hn : n = 0
  · have e1 : mndeFee n = fun x => x := by funext x; simp [mndeFee, hn]
    have e2 : mndeFeeMin n = fun x => x := by funext x; simp [mndeFeeMin, hn]
    have e3 : mndeFeeMax n = fun x => x := by funext x; simp [mndeFeeMax, hn]
    rw [e1, e2, e3]; exact IsConv.id
  · have e1 : mndeFee n = fun x => cdiv (x * (MAX_BP_CENTS - n)) MAX_BP_CENTS := by funext x; simp [mndeFee, hn]
    have e2 : mndeFeeMin n = fun y => MAX_BP_CENTS * (y - 1) / (MAX_BP_CENTS - n) := by funext x; simp [mndeFeeMin, hn]
    have e3 : mndeFeeMax n = fun y => cdiv (MAX_BP_CENTS * y) (MAX_BP_CENTS - n) := by funext x; simp [mndeFeeMax, hn]
    rw [e1, e2, e3]; exact IsConv.ceil (by omega) (by decide)

/-- SOL value of an LST amount according to the calculator's data. -/
def AnyCalc.f : AnyCalc → Nat → Nat
  | .lido c => fun x => x * c.solBalance / c.stSolSupply
  | .spl c => fun x => splFee c.feeNum c.feeDenom x * c.totalLamports / c.poolTokenSupply
  | .marinade c => fun x => mndeFee c.withdrawStakeAccountFeeCents (x * (c.totalVirtualStaked.toOption.getD 0) / c.msolSupply)
  | .wsol => fun x => x

/-- Least and largest LST amount for a SOL value. -/
def AnyCalc.rmin : AnyCalc → Nat → Nat
  | .lido c => fun y => c.stSolSupply * y / c.solBalance
  | .spl c => fun y => splFeeMin c.feeNum c.feeDenom (c.poolTokenSupply * y / c.totalLamports)
  | .marinade c => fun y =>
      c.msolSupply * mndeFeeMin c.withdrawStakeAccountFeeCents y / c.totalVirtualStaked.toOption.getD 0
  | .wsol => fun y => y

def AnyCalc.rmax : AnyCalc → Nat → Nat
  | .lido c => fun y => cdiv (c.stSolSupply * (y + 1)) c.solBalance
  | .spl c => fun y => splFeeMax c.feeNum c.feeDenom (cdiv (c.poolTokenSupply * (y + 1)) c.totalLamports)
  | .marinade c => fun y =>
      cdiv (c.msolSupply * (mndeFeeMax c.withdrawStakeAccountFeeCents y + 1)) (c.totalVirtualStaked.toOption.getD 0)
  | .wsol => fun y => y

/-- The calculator can answer at all (only Marinade's total can overflow). -/
def AnyCalc.Answers : AnyCalc → Prop
  | .marinade c => ∃ n, c.totalVirtualStaked = .ok n
  | _ => True

theorem AnyCalc.conv {c : AnyCalc} (h : c.Usable) (ha : c.Answers) : IsConv c.f c.rmin c.rmax := by
  cases c with
  | lido c => exact IsConv.floor (by have := h.1; omega) (by have := h.2; omega)
  | spl c => exact (splFee_conv h.2.2).comp (IsConv.floor (by have := h.1; omega) (by have := h.2.1; omega))
  | marinade c =>
    obtain ⟨n, hn⟩ := ha
    have hn0 : 0 < n := by
      rcases Nat.eq_zero_or_pos n with e | e
      · subst e; exact absurd hn h.1
      · exact e
    have e : c.totalVirtualStaked.toOption.getD 0 = n := by rw [hn]; rfl
    show IsConv (fun x => mndeFee _ (x * (c.totalVirtualStaked.toOption.getD 0) / _)) (fun y => _ * mndeFeeMin _ y / c.totalVirtualStaked.toOption.getD 0)
      (fun y => cdiv (_ * (mndeFeeMax _ y + 1)) (c.totalVirtualStaked.toOption.getD 0))
    rw [e]
    exact (IsConv.floor hn0 (by have := h.2.1; omega)).comp (mndeFee_conv h.2.2)
  | wsol => exact IsConv.id

theorem ceilFee_eq {n d x : Nat} (h : n = 0 ∨ n < d) : x - ceilFee n d x = splFee n d x ∧ ceilFee n d x ≤ x := by
  unfold ceilFee splFee
  by_cases hn : n = 0
  · simp [hn]
  · have hd : n < d := by omega
    rw [if_neg (by omega), if_neg hn, ceilFee_after hd]
    refine ⟨rfl, (cdiv_le_iff (by omega)).2 (Nat.mul_le_mul_left x (by omega))⟩

theorem ceilFeeApply_ok {n d x : Nat} {r : AmtsAfterFee} (h : n = 0 ∨ n < d) :
    ceilFeeApply n d x = .ok r ↔ r = ⟨splFee n d x, ceilFee n d x⟩ := by
  obtain ⟨h1, h2⟩ := ceilFee_eq (x := x) h
  simp only [ceilFeeApply, bind_ok, subU64_ok, pure_ok, ← h1]
  constructor
  · rintro ⟨_, ⟨rfl, _⟩, rfl⟩; rfl
  · rintro rfl; exact ⟨_, ⟨rfl, h2⟩, rfl⟩

theorem ceilFeeReverse_ok {L : RatioLib} {n d y : Nat} {r : Range} (h : n = 0 ∨ n < d)
    (hr : ceilFeeReverse L n d y = .ok r) : r = ⟨splFeeMin n d y, splFeeMax n d y⟩ := by
  unfold ceilFeeReverse at hr
  unfold splFeeMin splFeeMax
  by_cases hn : n = 0
  · simp only [hn, true_or, if_true, pure_ok] at hr ⊢; exact hr.symm
  · have hd : n < d := by omega
    rw [if_neg (by omega), if_neg (by omega)] at hr
    simp only [bind_ok, toU64_ok, pure_ok] at hr
    obtain ⟨_, ⟨rfl, _⟩, _, ⟨rfl, _⟩, rfl⟩ := hr
    simp [hn]

theorem floorFeeApply_ok {n x : Nat} {r : AmtsAfterFee} (h : n < MAX_BP_CENTS)
    (hr : floorFeeApply n MAX_BP_CENTS x = .ok r) : r.amtAfterFee = mndeFee n x := by
  simp only [floorFeeApply, bind_ok, subU64_ok, pure_ok] at hr
  obtain ⟨_, ⟨rfl, _⟩, rfl⟩ := hr
  unfold floorFee mndeFee
  by_cases hn : n = 0
  · simp [hn]
  · rw [if_neg (by simp [hn]), if_neg hn]; exact floorFee_after h

theorem floorFeeReverse_ok {L : RatioLib} {n y : Nat} {r : Range} (h : n < MAX_BP_CENTS)
    (hr : floorFeeReverse L n MAX_BP_CENTS y = .ok r) : r = ⟨mndeFeeMin n y, mndeFeeMax n y⟩ := by
  unfold floorFeeReverse at hr
  unfold mndeFeeMin mndeFeeMax
  by_cases hn : n = 0
  · simp only [hn, true_or, if_true, pure_ok] at hr ⊢; exact hr.symm
  · rw [if_neg (by simp [hn]), if_neg (by omega)] at hr
    simp only [bind_ok, toU64_ok, pure_ok] at hr
    obtain ⟨_, ⟨rfl, _⟩, _, ⟨rfl, _⟩, rfl⟩ := hr
    simp [hn]

theorem rangeNew_ok {a b : Nat} {r : Range} : rangeNew a b = .ok r ↔ r = ⟨a, b⟩ ∧ a ≤ b := by
  simp only [rangeNew, bind_ok, require_ok, pure_ok, exists_const]
  constructor
  · rintro ⟨h, rfl⟩; exact ⟨rfl, h⟩
  · rintro ⟨rfl, h⟩; exact ⟨h, rfl⟩

theorem AnyCalc.is (L : RatioLib) {c : AnyCalc} (h : c.Usable) : (c.calculator L).Is c.f c.rmin c.rmax := by
  cases c with
  | wsol =>
    constructor
    · intro a r hr; exact (pure_ok.1 hr).symm
    · intro a r hr; exact (pure_ok.1 hr).symm
  | lido c =>
    obtain ⟨h1, h2⟩ := h
    constructor
    · intro a r hr
      simp only [AnyCalc.calculator, LidoCalc.calculator, bind_ok, floorApply_ok' h2, pure_ok] at hr
      obtain ⟨_, ⟨rfl, _⟩, rfl⟩ := hr; rfl
    · intro a r hr
      exact ((floorReverse_ok h1 h2).1 hr).1
  | spl c =>
    obtain ⟨h1, h2, h3⟩ := h
    constructor
    · intro a r hr
      simp only [AnyCalc.calculator, SplCalc.calculator, bind_ok, ceilFeeApply_ok h3, floorApply_ok' h2, pure_ok] at hr
      obtain ⟨_, _, _, rfl, _, ⟨rfl, _⟩, rfl⟩ := hr; rfl
    · intro a r hr
      simp only [AnyCalc.calculator, SplCalc.calculator, bind_ok, floorReverse_ok h1 h2, rangeNew_ok] at hr
      obtain ⟨_, ⟨rfl, _⟩, _, _, r1, e1, r2, e2, rfl, _⟩ := hr
      rw [ceilFeeReverse_ok h3 e1, ceilFeeReverse_ok h3 e2]; rfl
  | marinade c =>
    obtain ⟨h1, h2, h3⟩ := h
    constructor
    · intro a r hr
      simp only [AnyCalc.calculator, MarinadeCalc.calculator, bind_ok, floorApply_ok' h2, pure_ok] at hr
      obtain ⟨n, hn, _, ⟨rfl, _⟩, _, _, _, hf, rfl⟩ := hr
      rw [floorFeeApply_ok h3 hf]
      simp only [AnyCalc.f, hn]; rfl
    · intro a r hr
      simp only [AnyCalc.calculator, MarinadeCalc.calculator, bind_ok, rangeNew_ok] at hr
      obtain ⟨_, _, r0, e0, n, hn, r1, e1, r2, e2, rfl, _⟩ := hr
      have hn0 : n ≠ 0 := by rintro rfl; exact h1 hn
      rw [floorReverse_ok hn0 h2] at e1 e2
      obtain ⟨rfl, _⟩ := e1
      obtain ⟨rfl, _⟩ := e2
      rw [floorFeeReverse_ok h3 e0]
      simp only [AnyCalc.rmin, AnyCalc.rmax, hn]; rfl

/-- A usable calculator that answered some conversion. -/
theorem AnyCalc.answers_of {L : RatioLib} {c : AnyCalc} {a : Nat} {r : Range}
    (h : (c.calculator L).lstToSol a = .ok r ∨ (c.calculator L).solToLst a = .ok r) : c.Answers := by
  cases c with
  | marinade c =>
    simp only [AnyCalc.calculator, MarinadeCalc.calculator, bind_ok] at h
    rcases h with ⟨n, hn, _⟩ | ⟨_, _, _, _, n, hn, _⟩ <;> exact ⟨n, hn⟩
  | _ => exact True.intro

end S
