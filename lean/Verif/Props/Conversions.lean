import Verif.Proofs.CalcConv
import Verif.FlatFee.Calc
import Verif.Props.Movements
/-
C23, C24, C25, C35, C36 and the function-level part of C37: the conversions of the SOL value calculators and the prices of the
flat-fee program.
-/
set_option autoImplicit false
namespace S

/-! ### C23 -/

/-- C23. For every calculator of the repository over a usable stake pool (non-zero supply and balance, withdrawal fee below 100%),
whenever the conversions involved succeed: LST → SOL → LST gives a range containing the original amount; SOL → LST (minimum) → SOL
gives at most the original value; SOL → LST (maximum) → SOL gives at least the original value. -/
theorem C23_round_trips (L : RatioLib) (c : AnyCalc) (hc : c.Usable) :
    (∀ a v r, (c.calculator L).lstToSol a = .ok v → (c.calculator L).solToLst v.min = .ok r → r.min ≤ a ∧ a ≤ r.max) ∧
    (∀ v r u, (c.calculator L).solToLst v = .ok r → (c.calculator L).lstToSol r.min = .ok u → u.min ≤ v ∧ u.max ≤ v) ∧
    (∀ v r u, (c.calculator L).solToLst v = .ok r → (c.calculator L).lstToSol r.max = .ok u → v ≤ u.min ∧ v ≤ u.max) := by
  have hi := AnyCalc.is L hc
  refine ⟨?_, ?_, ?_⟩
  · intro a v r h1 h2
    have hv := AnyCalc.conv hc (AnyCalc.answers_of (.inl h1))
    rw [hi.lstToSol h1] at h2
    rw [hi.solToLst h2]
    exact ⟨hv.backMin a, hv.backMax a⟩
  · intro v r u h1 h2
    have hv := AnyCalc.conv hc (AnyCalc.answers_of (.inl h2))
    rw [hi.solToLst h1] at h2
    rw [hi.lstToSol h2]
    exact ⟨hv.down v, hv.down v⟩
  · intro v r u h1 h2
    have hv := AnyCalc.conv hc (AnyCalc.answers_of (.inl h2))
    rw [hi.solToLst h1] at h2
    rw [hi.lstToSol h2]
    exact ⟨hv.up v, hv.up v⟩

/-- C23, ranges. The value range of an LST amount is a single value, and the LST range of a SOL value is ordered. -/
theorem C23_ranges (L : RatioLib) (c : AnyCalc) (hc : c.Usable) :
    (∀ a v, (c.calculator L).lstToSol a = .ok v → v.min = v.max) ∧
    (∀ v r, (c.calculator L).solToLst v = .ok r → r.min ≤ r.max) := by
  have hi := AnyCalc.is L hc
  refine ⟨fun a v h => by rw [hi.lstToSol h]; rfl, fun v r h => ?_⟩
  have hv := AnyCalc.conv hc (AnyCalc.answers_of (.inr h))
  rw [hi.solToLst h]
  show c.rmin v ≤ c.rmax v
  have h1 := hv.minMono (hv.up v)
  exact h1.trans (hv.backMin _)

-- the pools of the repository's fixtures are usable, and a round trip on each
abbrev exLido : AnyCalc := .lido ⟨0, 798610660031354, 916562524092677⟩
abbrev exJito : AnyCalc := .spl ⟨0, 6636671656500264, 6182849530219135, 1, 1000⟩
abbrev exMarinade : AnyCalc := .marinade ⟨false, 0, 0, 6276768438208055, 0, 0, 5389415762673722, true, 1500⟩
example : exLido.Usable := ⟨by decide, by decide⟩
example : exJito.Usable := ⟨by decide, by decide, .inr (by decide)⟩
example : exMarinade.Usable := ⟨by decide +kernel, by decide, by decide⟩
example : (exJito.calculator .ex).lstToSol 1000000000 = .ok (Range.single 1072326756) := by decide +kernel
example : (exJito.calculator .ex).solToLst 1072326756 = .ok ⟨999999998, 1000000003⟩ := by decide +kernel
example : (exMarinade.calculator .ex).solToLst 1162900315 = .ok ⟨999999998, 1000000002⟩ := by decide +kernel

/-! ### C24 -/

theorem outSolValueRatio_ok {i o : Int} {n : Nat} :
    outSolValueRatio i o = .ok n ↔ (n : Int) = 10000 - (i + o) ∧ -32768 ≤ i + o ∧ n ≤ 32767 := by
  simp only [outSolValueRatio, bind_ok, toI16_ok, require_ok, exists_const, pure_ok]
  constructor
  · rintro ⟨_, ⟨rfl, h1, h2⟩, _, ⟨rfl, h3, h4⟩, h5, rfl⟩
    omega
  · rintro ⟨h1, h2, h3⟩
    exact ⟨_, ⟨rfl, by omega, by omega⟩, _, ⟨rfl, by omega, by omega⟩, by omega, by omega⟩

theorem flatPriceExactIn_ok {L : RatioLib} {i o : Int} {x y : Nat} :
    flatPriceExactIn L i o x = .ok y ↔ ∃ n, outSolValueRatio i o = .ok n ∧ y = x * n / 10000 ∧ x * n / 10000 < U64 := by
  simp only [flatPriceExactIn, bind_ok, mapErr_ok, floorApply_ok' (show (10000 : Nat) ≠ 0 by decide)]

theorem flatPriceExactOut_ok {L : RatioLib} {i o : Int} {x y : Nat} (hf : i + o < 10000) :
    flatPriceExactOut L i o x = .ok y →
      ∃ n, outSolValueRatio i o = .ok n ∧ 0 < n ∧ y = cdiv (10000 * (x + 1)) n ∧ cdiv (10000 * (x + 1)) n < U64 := by
  simp only [flatPriceExactOut, bind_ok, mapErr_ok, pure_ok]
  rintro ⟨n, hn, r, hr, rfl⟩
  have h0 : n ≠ 0 := by have := (outSolValueRatio_ok.1 hn).1; omega
  rw [floorReverse_ok h0 (by decide)] at hr
  obtain ⟨rfl, _, h2⟩ := hr
  exact ⟨n, hn, by omega, rfl, h2⟩

/-- C24, exact in. The out value is the in value times (10000 − fees) / 10000, rounded down. -/
theorem C24_exact_in {L : RatioLib} {i o : Int} {x y : Nat} (h : flatPriceExactIn L i o x = .ok y) :
    i + o ≤ 10000 ∧ (y : Int) * 10000 ≤ x * (10000 - (i + o)) ∧ x * (10000 - (i + o)) < ((y : Int) + 1) * 10000 := by
  obtain ⟨n, hn, rfl, _⟩ := flatPriceExactIn_ok.1 h
  obtain ⟨hn, _, _⟩ := outSolValueRatio_ok.1 hn
  rw [← hn]
  refine ⟨by omega, ?_, ?_⟩
  · exact_mod_cast div_mul_le (x * n) 10000
  · exact_mod_cast lt_div_mul (x * n) (by decide : 0 < 10000)

/-- C24. The exact-out price of `v` is the smallest in value for which exact-in pricing gives more than `v`; in particular paying it
buys at least `v`. (Fees below 100%.) -/
theorem C24_exact_out_buys {L : RatioLib} {i o : Int} {v x : Nat} (hf : i + o < 10000)
    (h : flatPriceExactOut L i o v = .ok x) :
    (∀ y, flatPriceExactIn L i o x = .ok y → v ≤ y) ∧
    (∀ y, flatPriceExactIn L i o x = .ok y → v < y) ∧
    (∀ x' y, x' < x → flatPriceExactIn L i o x' = .ok y → y ≤ v) := by
  obtain ⟨n, hn, h0, rfl, _⟩ := flatPriceExactOut_ok hf h
  have key : ∀ y, flatPriceExactIn L i o (cdiv (10000 * (v + 1)) n) = .ok y → v < y := by
    intro y hy
    obtain ⟨n', hn', rfl, _⟩ := flatPriceExactIn_ok.1 hy
    rw [hn] at hn'; injection hn' with e; subst e
    rw [← Nat.succ_le_iff, le_div (by decide)]
    have := le_cdiv_mul (10000 * (v + 1)) h0
    rw [Nat.succ_eq_add_one, Nat.mul_comm]; exact this
  refine ⟨fun y hy => (key y hy).le, key, ?_⟩
  intro x' y hx hy
  obtain ⟨n', hn', rfl, _⟩ := flatPriceExactIn_ok.1 hy
  rw [hn] at hn'; injection hn' with e; subst e
  rw [← Nat.lt_add_one_iff, div_lt_mul (by decide)]
  by_contra hc
  have : cdiv (10000 * (v + 1)) n ≤ x' := (cdiv_le_iff h0).2 (by rw [Nat.mul_comm]; omega)
  omega

/-- C24. Fees above 100% in total are rejected by both prices. -/
theorem C24_too_high {L : RatioLib} {i o : Int} {x : Nat} (hf : 10000 < i + o) :
    (∀ y, flatPriceExactIn L i o x ≠ .ok y) ∧ (∀ y, flatPriceExactOut L i o x ≠ .ok y) := by
  have : ∀ n, outSolValueRatio i o ≠ .ok n := by
    intro n hn; obtain ⟨h, _, _⟩ := outSolValueRatio_ok.1 hn; omega
  constructor
  · intro y h; obtain ⟨n, hn, _⟩ := flatPriceExactIn_ok.1 h; exact this n hn
  · intro y h
    simp only [flatPriceExactOut, bind_ok] at h
    obtain ⟨n, hn, _⟩ := h; exact this n hn

/-- C24. With a non-negative total fee the out value never exceeds the in value, in both directions. -/
theorem C24_no_gain {L : RatioLib} {i o : Int} (hf : 0 ≤ i + o) :
    (∀ x y, flatPriceExactIn L i o x = .ok y → y ≤ x) ∧
    (∀ v x, i + o < 10000 → flatPriceExactOut L i o v = .ok x → v < x) := by
  constructor
  · intro x y h
    obtain ⟨n, hn, rfl, _⟩ := flatPriceExactIn_ok.1 h
    obtain ⟨hn, _, _⟩ := outSolValueRatio_ok.1 hn
    have : n ≤ 10000 := by omega
    have h2 : x * n / 10000 ≤ x * 10000 / 10000 := Nat.div_le_div_right (Nat.mul_le_mul_left x this)
    rwa [Nat.mul_div_cancel _ (by decide)] at h2
  · intro v x hlt h
    obtain ⟨n, hn, h0, rfl, _⟩ := flatPriceExactOut_ok hlt h
    obtain ⟨hn, _, _⟩ := outSolValueRatio_ok.1 hn
    have h1 := le_cdiv_mul (10000 * (v + 1)) h0
    have h2 : cdiv (10000 * (v + 1)) n * n ≤ cdiv (10000 * (v + 1)) n * 10000 := Nat.mul_le_mul_left _ (by omega)
    omega

example : flatPriceExactOut .ex 30 70 990000000 = .ok 1000000002 := by decide
example : flatPriceExactIn .ex 30 70 1000000002 = .ok 990000001 := by decide
example : flatPriceExactIn .ex 30 70 1000000001 = .ok 990000000 := by decide
example : flatPriceExactIn .ex 9999 2 1000 = .error .flatFeeMath := by decide
example : flatPriceExactIn .ex 9999 1 1000 = .ok 0 := by decide

/-! ### C25 -/

/-- C25. The redemption price is the value minus the fee of `bps` basis points rounded up; it never exceeds the value, and fees above
100% are rejected. -/
theorem C25_redeem {bps v u : Nat} :
    flatPriceRedeem bps v = .ok u ↔ bps ≤ 10000 ∧ u = v - cdiv (v * bps) 10000 := by
  simp only [flatPriceRedeem, bind_ok, mapErr_ok, bpsCeilFeeApply, feeNew, ceilFeeApply, require_ok, exists_const, subU64_ok, pure_ok]
  have hz : ∀ v, ceilFee bps BPS v = cdiv (v * bps) 10000 := by
    intro v
    unfold ceilFee; split
    · rename_i h; rcases h with h | h
      · subst h; simp [cdiv]
      · cases h
    · rfl
  simp only [hz]
  constructor
  · rintro ⟨_, ⟨h1, _, ⟨rfl, h2⟩, rfl⟩, rfl⟩; exact ⟨h1, rfl⟩
  · rintro ⟨h1, rfl⟩
    exact ⟨_, ⟨h1, _, ⟨rfl, (cdiv_le_iff (by decide)).2 (Nat.mul_le_mul_left v h1)⟩, rfl⟩, rfl⟩

theorem C25_redeem_le {bps v u : Nat} (h : flatPriceRedeem bps v = .ok u) : u ≤ v := by
  rw [(C25_redeem.1 h).2]; omega

example : flatPriceRedeem 5 1001 = .ok 1000 := by decide

/-! ### C35 -/

/-- C35, calculators. -/
theorem C35_calculators (L : RatioLib) (c : AnyCalc) (hc : c.Usable) :
    (∀ a b va vb, a ≤ b → (c.calculator L).lstToSol a = .ok va → (c.calculator L).lstToSol b = .ok vb →
      va.min ≤ vb.min ∧ va.max ≤ vb.max) ∧
    (∀ v u rv ru, v ≤ u → (c.calculator L).solToLst v = .ok rv → (c.calculator L).solToLst u = .ok ru →
      rv.min ≤ ru.min ∧ rv.max ≤ ru.max) := by
  have hi := AnyCalc.is L hc
  constructor
  · intro a b va vb h h1 h2
    have hv := AnyCalc.conv hc (AnyCalc.answers_of (.inl h2))
    rw [hi.lstToSol h1, hi.lstToSol h2]
    exact ⟨hv.fmono h, hv.fmono h⟩
  · intro v u rv ru h h1 h2
    have hv := AnyCalc.conv hc (AnyCalc.answers_of (.inr h2))
    rw [hi.solToLst h1, hi.solToLst h2]
    exact ⟨hv.minMono h, hv.maxMono h⟩

/-- C35, flat-fee prices. -/
theorem C35_prices (L : RatioLib) {i o : Int} {bps x x' y y' : Nat} (h : x ≤ x') :
    (flatPriceExactIn L i o x = .ok y → flatPriceExactIn L i o x' = .ok y' → y ≤ y') ∧
    (i + o < 10000 → flatPriceExactOut L i o x = .ok y → flatPriceExactOut L i o x' = .ok y' → y ≤ y') ∧
    (flatPriceRedeem bps x = .ok y → flatPriceRedeem bps x' = .ok y' → y ≤ y') := by
  refine ⟨?_, ?_, ?_⟩
  · intro h1 h2
    obtain ⟨n, hn, rfl, _⟩ := flatPriceExactIn_ok.1 h1
    obtain ⟨n', hn', rfl, _⟩ := flatPriceExactIn_ok.1 h2
    rw [hn] at hn'; injection hn' with e; subst e
    exact Nat.div_le_div_right (Nat.mul_le_mul_right n h)
  · intro hf h1 h2
    obtain ⟨n, hn, h0, rfl, _⟩ := flatPriceExactOut_ok hf h1
    obtain ⟨n', hn', _, rfl, _⟩ := flatPriceExactOut_ok hf h2
    rw [hn] at hn'; injection hn' with e; subst e
    exact cdiv_mono h0 (Nat.mul_le_mul_left _ (by omega))
  · intro h1 h2
    obtain ⟨hb, rfl⟩ := C25_redeem.1 h1
    obtain ⟨_, rfl⟩ := C25_redeem.1 h2
    rcases Nat.lt_or_ge bps 10000 with hb' | hb'
    · rw [ceilFee_after hb', ceilFee_after hb']
      exact Nat.div_le_div_right (Nat.mul_le_mul_right _ h)
    · have e : bps = 10000 := by omega
      subst e
      have : ∀ z, z - cdiv (z * 10000) 10000 = 0 := by
        intro z; have := le_cdiv_mul (z * 10000) (by decide : 0 < 10000); omega
      rw [this, this]

/-- C35, LP tokens: for the same pool, more SOL value mints at least as many LP tokens and more LP tokens are worth at least as much. -/
theorem C35_lp (L : RatioLib) {r : LpTokenRateArgs} {x x' y y' : Nat} (h : x ≤ x') :
    (calcLpTokensToMint L r x = .ok y → calcLpTokensToMint L r x' = .ok y' → y ≤ y') ∧
    (calcLpTokensSolValue L r x = .ok y → calcLpTokensSolValue L r x' = .ok y' → y ≤ y') := by
  constructor
  · unfold calcLpTokensToMint
    split
    · intro h1 h2
      rw [addU64, toU64_ok] at h1 h2; omega
    · split
      · intro h1 h2; rw [pure_ok] at h1 h2; omega
      · intro h1 h2
        rename_i hz
        rw [(floorApply_ok h1 hz).1, (floorApply_ok h2 hz).1]
        exact Nat.div_le_div_right (Nat.mul_le_mul_right _ h)
  · unfold calcLpTokensSolValue
    split
    · intro h1 h2; rw [pure_ok] at h1 h2; omega
    · intro h1 h2
      rename_i hz
      have hz : r.lpTokenSupply ≠ 0 := by tauto
      rw [(floorApply_ok h1 hz).1, (floorApply_ok h2 hz).1]
      exact Nat.div_le_div_right (Nat.mul_le_mul_right _ h)

/-! ### C36 -/

/-- `g` gives for a whole at least the sum of what it gives for two parts. -/
def Superadd (g : Nat → Nat) : Prop := ∀ a b, g a + g b ≤ g (a + b)

theorem superadd_floor (n d : Nat) : Superadd (fun x => x * n / d) := fun a b => by
  rcases Nat.eq_zero_or_pos d with rfl | hd
  · simp
  · show a * n / d + b * n / d ≤ (a + b) * n / d
    rw [le_div hd, Nat.add_mul]
    have h1 := div_mul_le (a * n) d
    have h2 := div_mul_le (b * n) d
    have : (a + b) * n = a * n + b * n := Nat.add_mul ..
    omega

theorem superadd_floor' (n d : Nat) : Superadd (fun y => d * y / n) := by
  have := superadd_floor d n
  intro a b; have := this a b; simpa [Nat.mul_comm] using this

theorem Superadd.comp {f g : Nat → Nat} (hf : Superadd f) (hg : Superadd g) (hm : ∀ {a b}, a ≤ b → g a ≤ g b) :
    Superadd (fun x => g (f x)) := fun a b => (hg (f a) (f b)).trans (hm (hf a b))

theorem splFee_superadd (n d : Nat) : Superadd (splFee n d) := by
  intro a b; unfold splFee; split
  · exact Nat.le_refl _
  · exact superadd_floor (d - n) d a b

theorem splFeeMin_superadd (n d : Nat) : Superadd (splFeeMin n d) := by
  intro a b; unfold splFeeMin; split
  · exact Nat.le_refl _
  · exact superadd_floor' (d - n) d a b

theorem mndeFeeMin_superadd (n : Nat) : Superadd (mndeFeeMin n) := by
  intro a b; unfold mndeFeeMin; split
  · exact Nat.le_refl _
  · refine (superadd_floor' (MAX_BP_CENTS - n) MAX_BP_CENTS (a - 1) (b - 1)).trans ?_
    exact Nat.div_le_div_right (Nat.mul_le_mul_left _ (by omega))

/-- Calculators whose value is a floor of a proportion: all but Marinade with a withdrawal fee. -/
def AnyCalc.Proportional : AnyCalc → Prop
  | .marinade c => c.withdrawStakeAccountFeeCents = 0
  | _ => True

theorem AnyCalc.f_superadd {c : AnyCalc} (h : c.Proportional) : Superadd c.f := by
  cases c with
  | lido c => exact superadd_floor _ _
  | spl c => exact (splFee_superadd _ _).comp (superadd_floor _ _) fun h => Nat.div_le_div_right (Nat.mul_le_mul_right _ h)
  | marinade c =>
    have e : c.withdrawStakeAccountFeeCents = 0 := h
    have : AnyCalc.f (.marinade c) = fun x => x * (c.totalVirtualStaked.toOption.getD 0) / c.msolSupply := by
      funext x; simp [AnyCalc.f, mndeFee, e]
    rw [this]; exact superadd_floor _ _
  | wsol => exact fun a b => Nat.le_refl _

theorem AnyCalc.rmin_superadd (c : AnyCalc) : Superadd c.rmin := by
  cases c with
  | lido c => exact superadd_floor' _ _
  | spl c =>
    exact Superadd.comp (g := splFeeMin c.feeNum c.feeDenom) (superadd_floor' c.totalLamports c.poolTokenSupply)
      (splFeeMin_superadd _ _) fun {a b} h => by
        unfold splFeeMin; split
        · exact h
        · exact Nat.div_le_div_right (Nat.mul_le_mul_left _ h)
  | marinade c =>
    exact Superadd.comp (f := mndeFeeMin c.withdrawStakeAccountFeeCents)
      (g := fun y => c.msolSupply * y / c.totalVirtualStaked.toOption.getD 0) (mndeFeeMin_superadd _) (superadd_floor' _ _) fun h => Nat.div_le_div_right (Nat.mul_le_mul_left _ h)
  | wsol => exact fun a b => Nat.le_refl _

theorem mndeFee_add (n a b : Nat) : mndeFee n a + mndeFee n b ≤ mndeFee n (a + b) + 1 := by
  unfold mndeFee; split
  · omega
  · have h0 : 0 < MAX_BP_CENTS := by decide
    have e1 := cdiv_mul_lt (a * (MAX_BP_CENTS - n)) h0
    have e2 := cdiv_mul_lt (b * (MAX_BP_CENTS - n)) h0
    have e3 := le_cdiv_mul ((a + b) * (MAX_BP_CENTS - n)) h0
    rw [Nat.add_mul] at e3
    by_contra hc
    have := Nat.mul_le_mul_right MAX_BP_CENTS (Nat.lt_of_not_le hc)
    simp only [Nat.succ_eq_add_one, Nat.add_mul, Nat.one_mul] at this
    omega

theorem AnyCalc.f_almost_superadd {c : AnyCalc} (h : c.Usable) (a b : Nat) : c.f a + c.f b ≤ c.f (a + b) + 1 := by
  cases c with
  | marinade c =>
    have h1 := superadd_floor (c.totalVirtualStaked.toOption.getD 0) c.msolSupply a b
    refine (mndeFee_add _ _ _).trans (Nat.add_le_add_right ?_ 1)
    exact (mndeFee_conv h.2.2).fmono h1
  | lido c => exact (superadd_floor _ _ a b).trans (by exact Nat.le_succ _)
  | spl c => exact (AnyCalc.f_superadd (c := .spl c) True.intro a b).trans (by exact Nat.le_succ _)
  | wsol => exact Nat.le_succ _

/-- C36, deposits and exact-in inputs. Valuing two parts separately gives at most the value of the whole, for every calculator
other than Marinade with a withdrawal fee. -/
theorem C36_split_value (L : RatioLib) (c : AnyCalc) (hc : c.Usable) (hp : c.Proportional) {a b : Nat} {va vb vab : Range}
    (h1 : (c.calculator L).lstToSol a = .ok va) (h2 : (c.calculator L).lstToSol b = .ok vb)
    (h3 : (c.calculator L).lstToSol (a + b) = .ok vab) : va.min + vb.min ≤ vab.min := by
  have hi := AnyCalc.is L hc
  rw [hi.lstToSol h1, hi.lstToSol h2, hi.lstToSol h3]
  exact AnyCalc.f_superadd hp a b

/-- C36, all calculators: splitting gains at most one lamport. -/
theorem C36_split_value_all (L : RatioLib) (c : AnyCalc) (hc : c.Usable) {a b : Nat} {va vb vab : Range}
    (h1 : (c.calculator L).lstToSol a = .ok va) (h2 : (c.calculator L).lstToSol b = .ok vb)
    (h3 : (c.calculator L).lstToSol (a + b) = .ok vab) : va.min + vb.min ≤ vab.min + 1 := by
  have hi := AnyCalc.is L hc
  rw [hi.lstToSol h1, hi.lstToSol h2, hi.lstToSol h3]
  exact AnyCalc.f_almost_superadd hc a b

-- and with a Marinade fee it can gain that lamport: 1 + 1 > 1
example : (AnyCalc.calculator .ex (.marinade ⟨false, 0, 0, 1000, 0, 0, 1000, true, 500000⟩)).lstToSol 1 = .ok ⟨1, 1⟩ ∧
    (AnyCalc.calculator .ex (.marinade ⟨false, 0, 0, 1000, 0, 0, 1000, true, 500000⟩)).lstToSol 2 = .ok ⟨1, 1⟩ := by decide +kernel

/-- C36, redemptions and exact-in outputs: converting two SOL values separately gives at most the LST of their sum, for every
calculator. -/
theorem C36_split_lst (L : RatioLib) (c : AnyCalc) (hc : c.Usable) {a b : Nat} {ra rb rab : Range}
    (h1 : (c.calculator L).solToLst a = .ok ra) (h2 : (c.calculator L).solToLst b = .ok rb)
    (h3 : (c.calculator L).solToLst (a + b) = .ok rab) : ra.min + rb.min ≤ rab.min := by
  have hi := AnyCalc.is L hc
  rw [hi.solToLst h1, hi.solToLst h2, hi.solToLst h3]
  exact AnyCalc.rmin_superadd c a b

/-- C36, exact-in prices and redemption prices. -/
theorem C36_split_price (L : RatioLib) {i o : Int} {bps a b ya yb yab : Nat} :
    (flatPriceExactIn L i o a = .ok ya → flatPriceExactIn L i o b = .ok yb → flatPriceExactIn L i o (a + b) = .ok yab →
      ya + yb ≤ yab) ∧
    (flatPriceRedeem bps a = .ok ya → flatPriceRedeem bps b = .ok yb → flatPriceRedeem bps (a + b) = .ok yab →
      ya + yb ≤ yab) := by
  constructor
  · intro h1 h2 h3
    obtain ⟨n, hn, rfl, _⟩ := flatPriceExactIn_ok.1 h1
    obtain ⟨n', hn', rfl, _⟩ := flatPriceExactIn_ok.1 h2
    obtain ⟨n'', hn'', rfl, _⟩ := flatPriceExactIn_ok.1 h3
    rw [hn] at hn' hn''; injection hn' with e; injection hn'' with e'; subst e; subst e'
    exact superadd_floor n 10000 a b
  · intro h1 h2 h3
    obtain ⟨hb, rfl⟩ := C25_redeem.1 h1
    obtain ⟨_, rfl⟩ := C25_redeem.1 h2
    obtain ⟨_, rfl⟩ := C25_redeem.1 h3
    rcases Nat.lt_or_ge bps 10000 with hb' | hb'
    · rw [ceilFee_after hb', ceilFee_after hb', ceilFee_after hb']
      exact superadd_floor (10000 - bps) 10000 a b
    · have e : bps = 10000 := by omega
      subst e
      have : ∀ z, z - cdiv (z * 10000) 10000 = 0 := by
        intro z; have := le_cdiv_mul (z * 10000) (by decide : 0 < 10000); omega
      rw [this, this]; omega

/-- C36, LP tokens of an existing pool: at the same LP rate, two deposits' values mint at most the LP tokens of their sum, and two
redemptions are worth at most the redemption of the sum. -/
theorem C36_split_lp (L : RatioLib) {r : LpTokenRateArgs} {a b ya yb yab : Nat} :
    (r.lpTokenSupply ≠ 0 → calcLpTokensToMint L r a = .ok ya → calcLpTokensToMint L r b = .ok yb →
      calcLpTokensToMint L r (a + b) = .ok yab → ya + yb ≤ yab) ∧
    (calcLpTokensSolValue L r a = .ok ya → calcLpTokensSolValue L r b = .ok yb → calcLpTokensSolValue L r (a + b) = .ok yab →
      ya + yb ≤ yab) := by
  constructor
  · intro hs
    unfold calcLpTokensToMint
    rw [if_neg hs, if_neg hs, if_neg hs]
    split
    · intro h1 h2 h3; rw [pure_ok] at h1 h2 h3; omega
    · intro h1 h2 h3
      rename_i hz
      rw [(floorApply_ok h1 hz).1, (floorApply_ok h2 hz).1, (floorApply_ok h3 hz).1]
      exact superadd_floor _ _ a b
  · unfold calcLpTokensSolValue
    split
    · intro h1 h2 h3; rw [pure_ok] at h1 h2 h3; omega
    · intro h1 h2 h3
      rename_i hz
      have hz : r.lpTokenSupply ≠ 0 := by tauto
      rw [(floorApply_ok h1 hz).1, (floorApply_ok h2 hz).1, (floorApply_ok h3 hz).1]
      exact superadd_floor _ _ a b

example : flatPriceExactIn .ex 1 0 150 = .ok 149 ∧ flatPriceExactIn .ex 1 0 300 = .ok 299 := by decide

end S
