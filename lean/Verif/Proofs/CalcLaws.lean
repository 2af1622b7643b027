import Verif.Props.Conversions
/-
Laws of the calculators used by C09 – C12: how the value of a balance changes when an amount valued by the same calculator is
added or taken out.
-/
set_option autoImplicit false
namespace S

/-- `q v ≥ u a` and `y ≤ a n / d` (floor): the floor of `q n / d` is more than `u y / v - 1`. -/
theorem floor_share {n d a q u v : Nat} (hd : 0 < d) (hq : u * a ≤ q * v) : u * (a * n / d) < (q * n / d + 1) * v ∨ v = 0 := by
  rcases Nat.eq_zero_or_pos v with h | hv
  · exact .inr h
  left
  have h1 := lt_div_mul (q * n) hd
  have h2 := div_mul_le (a * n) d
  have h3 : u * (a * n / d) * d ≤ u * (a * n) := by rw [Nat.mul_assoc]; exact Nat.mul_le_mul_left u h2
  have h4 : u * (a * n) ≤ q * v * n := by rw [← Nat.mul_assoc]; exact Nat.mul_le_mul_right n hq
  have h5 : q * n * v < (q * n / d + 1) * d * v := Nat.mul_lt_mul_of_pos_right h1 hv
  have h6 : q * v * n = q * n * v := by ring
  have h7 : (q * n / d + 1) * d * v = (q * n / d + 1) * v * d := by ring
  exact Nat.lt_of_mul_lt_mul_right (a := d) (by omega)

theorem share_kept {a p u v : Nat} (hu : u ≤ v) (hp : p * v ≤ (v - u) * a) (ha : p ≤ a) : u * a ≤ (a - p) * v := by
  have e1 : (a - p) * v + p * v = a * v := by rw [← Nat.add_mul]; congr 1; omega
  have e2 : (v - u) * a + u * a = v * a := by rw [← Nat.add_mul]; congr 1; omega
  have : a * v = v * a := Nat.mul_comm ..
  omega

/-! ### deposits -/

theorem dep_floor {n d a b p u : Nat} (hd : 0 < d) (hu : u ≤ a * n / d) (hv : 0 < a * n / d)
    (hp : p * (a * n / d) ≤ (a * n / d - u) * a) (ha : p ≤ a) : b * n / d + u ≤ (b + (a - p)) * n / d := by
  have hq := share_kept hu hp ha
  rw [le_div hd]
  have h1 := div_mul_le (b * n) d
  have h2 := div_mul_le (a * n) d
  generalize a * n / d = v at *
  have h3 : u * d ≤ (a - p) * n := by
    have e1 : u * d * v ≤ u * (a * n) := by
      have : u * d * v = u * (v * d) := by ring
      rw [this]; exact Nat.mul_le_mul_left u h2
    have e2 : u * (a * n) ≤ (a - p) * n * v := by
      have : (a - p) * n * v = (a - p) * v * n := by ring
      rw [this, ← Nat.mul_assoc]; exact Nat.mul_le_mul_right n hq
    exact Nat.le_of_mul_le_mul_right (e1.trans e2) hv
  have e : (b + (a - p)) * n = b * n + (a - p) * n := Nat.add_mul ..
  have e' : (b * n / d + u) * d = b * n / d * d + u * d := Nat.add_mul ..
  omega

theorem dep_spl {k D T P a b p u : Nat} (hD : 0 < D) (hP : 0 < P) (hu : u ≤ a * k / D * T / P) (hv : 0 < a * k / D * T / P)
    (hp : p * (a * k / D * T / P) ≤ (a * k / D * T / P - u) * a) (ha : p ≤ a) :
    b * k / D * T / P + u ≤ (b + (a - p)) * k / D * T / P + cdiv T P := by
  have hq := share_kept hu hp ha
  rcases floor_share (n := k) hD hq with h1 | h1
  swap
  · omega
  have hsup : b * k / D + (a - p) * k / D ≤ (b + (a - p)) * k / D := superadd_floor k D b (a - p)
  have h2 := div_mul_le (a * k / D * T) P
  have h3 := lt_div_mul ((b + (a - p)) * k / D * T) hP
  have h4 := div_mul_le (b * k / D * T) P
  have h5 := le_cdiv_mul T hP
  generalize (b + (a - p)) * k / D = sbq at *
  generalize b * k / D = sb at *
  generalize (a - p) * k / D = sq at *
  generalize a * k / D = y at *
  generalize cdiv T P = c at *
  generalize sbq * T / P = fbq at *
  generalize sb * T / P = fb at *
  generalize y * T / P = v at *
  have h6 : u * P ≤ (sq + 1) * T := by
    have e1 : u * P * v ≤ u * y * T := by
      have : u * P * v = u * (v * P) := by ring
      rw [this, Nat.mul_assoc]; exact Nat.mul_le_mul_left u h2
    have e2 : u * y * T ≤ (sq + 1) * T * v := by
      have : (sq + 1) * T * v = (sq + 1) * v * T := by ring
      rw [this]; exact Nat.mul_le_mul_right T h1.le
    exact Nat.le_of_mul_le_mul_right (e1.trans e2) hv
  have h7 : sb * T + sq * T ≤ sbq * T := by rw [← Nat.add_mul]; exact Nat.mul_le_mul_right T hsup
  rw [← Nat.lt_add_one_iff]
  apply Nat.lt_of_mul_lt_mul_right (a := P)
  have e1 : (fb + u) * P = fb * P + u * P := Nat.add_mul ..
  have e2 : (fbq + c + 1) * P = (fbq + 1) * P + c * P := by ring
  have e3 : (sq + 1) * T = sq * T + T := by ring
  omega

theorem dep_mnde {N M k D a b p u : Nat} (hM : 0 < M) (hD : 0 < D) (hk : k ≤ D) (hu : u ≤ cdiv (a * N / M * k) D)
    (hv : 0 < cdiv (a * N / M * k) D) (hp : p * cdiv (a * N / M * k) D ≤ (cdiv (a * N / M * k) D - u) * a) (ha : p ≤ a) :
    cdiv (b * N / M * k) D + u ≤ cdiv ((b + (a - p)) * N / M * k) D + 2 := by
  have hq := share_kept hu hp ha
  rcases floor_share (n := N) hM hq with h1 | h1
  swap
  · omega
  have hsup : b * N / M + (a - p) * N / M ≤ (b + (a - p)) * N / M := superadd_floor N M b (a - p)
  have h2 := cdiv_mul_lt (a * N / M * k) hD
  have h3 := le_cdiv_mul ((b + (a - p)) * N / M * k) hD
  have h4 := cdiv_mul_lt (b * N / M * k) hD
  generalize (b + (a - p)) * N / M = sbq at *
  generalize b * N / M = sb at *
  generalize (a - p) * N / M = sq at *
  generalize a * N / M = y at *
  generalize cdiv (sbq * k) D = fbq at *
  generalize cdiv (sb * k) D = fb at *
  generalize cdiv (y * k) D = v at *
  have h6 : u * D ≤ (sq + 1) * k + D := by
    have e1 : u * D * v ≤ u * (y * k) + u * D := by
      have : u * D * v = u * (v * D) := by ring
      rw [this, ← Nat.mul_add]; exact Nat.mul_le_mul_left u h2.le
    have e2 : u * (y * k) ≤ (sq + 1) * k * v := by
      have : (sq + 1) * k * v = (sq + 1) * v * k := by ring
      rw [this, ← Nat.mul_assoc]; exact Nat.mul_le_mul_right k h1.le
    have e3 : u * D ≤ D * v := by rw [Nat.mul_comm]; exact Nat.mul_le_mul_left D hu
    have e4 : ((sq + 1) * k + D) * v = (sq + 1) * k * v + D * v := Nat.add_mul ..
    exact Nat.le_of_mul_le_mul_right (by omega) hv
  have h7 : sb * k + sq * k ≤ sbq * k := by rw [← Nat.add_mul]; exact Nat.mul_le_mul_right k hsup
  rw [← Nat.lt_add_one_iff]
  apply Nat.lt_of_mul_lt_mul_right (a := D)
  have e1 : (fb + u) * D = fb * D + u * D := Nat.add_mul ..
  have e2 : (fbq + 2 + 1) * D = fbq * D + D + D + D := by ring
  have e3 : (sq + 1) * k = sq * k + k := by ring
  omega

/-- Lamports that a deposit can cost the other LPs by rounding. -/
def AnyCalc.depositSlack : AnyCalc → Nat
  | .lido _ => 0
  | .spl c => if c.feeNum = 0 then 0 else cdiv c.totalLamports c.poolTokenSupply
  | .marinade c => if c.withdrawStakeAccountFeeCents = 0 then 0 else 2
  | .wsol => 0

/-- A deposit of `a` valued `v`, credited at `u ≤ v`, of which `p`, worth at most the rest at the deposit's rate, goes elsewhere,
adds at least `u` to the value of the reserves, up to the slack. -/
theorem AnyCalc.dep {c : AnyCalc} (h : c.Usable) {a b p u : Nat} (hu : u ≤ c.f a) (hv : c.f a ≠ 0)
    (hp : p * c.f a ≤ (c.f a - u) * a) (ha : p ≤ a) : c.f b + u ≤ c.f (b + (a - p)) + c.depositSlack := by
  have hv : 0 < c.f a := Nat.pos_of_ne_zero hv
  cases c with
  | lido c => exact dep_floor (by have := h.2; omega) hu hv hp ha
  | wsol =>
    have h1 := dep_floor (n := 1) (d := 1) (a := a) (b := b) (p := p) (u := u) (by decide)
    simp only [AnyCalc.f, AnyCalc.depositSlack, Nat.mul_one, Nat.div_one, Nat.add_zero] at *
    exact h1 hu hv hp ha
  | spl c =>
    have hP : 0 < c.poolTokenSupply := by have := h.2.1; omega
    by_cases hf : c.feeNum = 0
    · simp only [AnyCalc.f, AnyCalc.depositSlack, splFee, hf, if_true, Nat.add_zero] at *
      exact dep_floor hP hu hv hp ha
    · have hD : 0 < c.feeDenom := by have := h.2.2; omega
      simp only [AnyCalc.f, AnyCalc.depositSlack, splFee, hf, if_false] at *
      exact dep_spl hD hP hu hv hp ha
  | marinade c =>
    have hM : 0 < c.msolSupply := by have := h.2.1; omega
    by_cases hf : c.withdrawStakeAccountFeeCents = 0
    · simp only [AnyCalc.f, AnyCalc.depositSlack, mndeFee, hf, if_true, Nat.add_zero] at *
      exact dep_floor hM hu hv hp ha
    · simp only [AnyCalc.f, AnyCalc.depositSlack, mndeFee, hf, if_false] at *
      exact dep_mnde hM (by decide) (Nat.sub_le _ _) hu hv hp ha

/-! ### redemptions -/

/-- Taking `s` out lowers a floor by at most the ceiling of `s n / d`. -/
theorem floor_drop {n d b s : Nat} (hd : 0 < d) (hs : s ≤ b) : b * n / d ≤ (b - s) * n / d + cdiv (s * n) d := by
  rw [← Nat.lt_add_one_iff, div_lt_mul hd]
  have h1 := lt_div_mul ((b - s) * n) hd
  have h2 := le_cdiv_mul (s * n) hd
  have e : b * n = (b - s) * n + s * n := by rw [← Nat.add_mul]; congr 1; omega
  have e2 : ((b - s) * n / d + cdiv (s * n) d + 1) * d = ((b - s) * n / d + 1) * d + cdiv (s * n) d * d := by ring
  omega

theorem ceil_drop {k d x y z : Nat} (hd : 0 < d) (h : x ≤ y + z) : cdiv (x * k) d ≤ cdiv (y * k) d + cdiv (z * k) d := by
  rw [cdiv_le_iff hd, Nat.add_mul]
  have h1 := le_cdiv_mul (y * k) hd
  have h2 := le_cdiv_mul (z * k) hd
  have : x * k ≤ y * k + z * k := by rw [← Nat.add_mul]; exact Nat.mul_le_mul_right k h
  omega

/-- The payout `t` and the part `p` for the protocol cost together at most `v` at slope `N / D`. -/
theorem red_slope {N D t p u v : Nat} (hu : 0 < u) (huv : u ≤ v) (ht : t * N ≤ u * D) (hp : p * u ≤ (v - u) * t) :
    (t + p) * N ≤ v * D := by
  apply Nat.le_of_mul_le_mul_right _ hu
  have e1 : p * u * N ≤ (v - u) * t * N := Nat.mul_le_mul_right N hp
  have e2 : (v - u) * t * N ≤ (v - u) * (u * D) := by rw [Nat.mul_assoc]; exact Nat.mul_le_mul_left _ ht
  have e3 : t * N * u ≤ u * D * u := Nat.mul_le_mul_right u ht
  have e4 : (t + p) * N * u = t * N * u + p * u * N := by ring
  have e5 : u * D * u + (v - u) * (u * D) = v * D * u := by
    have : u * D * u + (v - u) * (u * D) = (u + (v - u)) * (u * D) := by ring
    rw [this, Nat.add_sub_cancel' huv]; ring
  omega

theorem red_floor {n d b t p u v : Nat} (hd : 0 < d) (hu : 0 < u) (huv : u ≤ v) (ht : t * n ≤ u * d)
    (hp : p * u ≤ (v - u) * t) (hb : t + p ≤ b) : b * n / d ≤ (b - (t + p)) * n / d + v := by
  refine (floor_drop hd hb).trans (Nat.add_le_add_left ?_ _)
  rw [cdiv_le_iff hd]
  exact red_slope hu huv ht hp

theorem div_mul_le' {d y n : Nat} : d * y / n * n ≤ y * d := by
  rw [Nat.mul_comm y d]; exact div_mul_le (d * y) n

theorem red_spl {k D T P b t p u v : Nat} (hD : 0 < D) (hP : 0 < P) (hu : 0 < u) (huv : u ≤ v)
    (ht : t = D * (P * u / T) / k) (hp : p * u ≤ (v - u) * t) (hb : t + p ≤ b) :
    b * k / D * T / P ≤ (b - (t + p)) * k / D * T / P + v + (if p = 0 then 0 else cdiv T P) := by
  have h1 : t * k ≤ P * u / T * D := by rw [ht]; exact div_mul_le'
  have h2 : P * u / T * T ≤ u * P := div_mul_le'
  have hdrop := floor_drop (n := k) hD hb
  by_cases hp0 : p = 0
  · subst hp0
    simp only [Nat.add_zero, if_true] at *
    have h3 : cdiv (t * k) D ≤ P * u / T := (cdiv_le_iff hD).2 h1
    have h4 : b * k / D * T / P ≤ ((b - t) * k / D + P * u / T) * T / P :=
      Nat.div_le_div_right (Nat.mul_le_mul_right T (by omega))
    refine h4.trans ?_
    rw [← Nat.lt_add_one_iff, div_lt_mul hP]
    have h5 := lt_div_mul ((b - t) * k / D * T) hP
    have e : ((b - t) * k / D * T / P + v + 1) * P = ((b - t) * k / D * T / P + 1) * P + v * P := by ring
    have e2 : ((b - t) * k / D + P * u / T) * T = (b - t) * k / D * T + P * u / T * T := Nat.add_mul ..
    have : u * P ≤ v * P := Nat.mul_le_mul_right P huv
    omega
  · rw [if_neg hp0]
    have hs : (t + p) * (k * T) ≤ v * (D * P) := by
      apply red_slope hu huv _ hp
      have e1 : t * k * T ≤ P * u / T * D * T := Nat.mul_le_mul_right T h1
      have e2 : P * u / T * T * D ≤ u * P * D := Nat.mul_le_mul_right D h2
      have e3 : P * u / T * D * T = P * u / T * T * D := by ring
      have e4 : u * (D * P) = u * P * D := by ring
      have e5 : t * (k * T) = t * k * T := by ring
      omega
    have hc := cdiv_mul_lt ((t + p) * k) hD
    generalize cdiv ((t + p) * k) D = z at *
    have hz : z * T ≤ v * P + T := by
      apply Nat.le_of_mul_le_mul_right _ hD
      have e1 : z * D * T ≤ ((t + p) * k + D) * T := Nat.mul_le_mul_right T hc.le
      have e2 : ((t + p) * k + D) * T = (t + p) * (k * T) + D * T := by ring
      have e3 : (v * P + T) * D = v * (D * P) + D * T := by ring
      have e4 : z * T * D = z * D * T := by ring
      omega
    have h4 : b * k / D * T / P ≤ ((b - (t + p)) * k / D + z) * T / P := Nat.div_le_div_right (Nat.mul_le_mul_right T hdrop)
    refine h4.trans ?_
    rw [← Nat.lt_add_one_iff, div_lt_mul hP]
    have h5 := lt_div_mul ((b - (t + p)) * k / D * T) hP
    have h6 := le_cdiv_mul T hP
    have e : ((b - (t + p)) * k / D * T / P + v + cdiv T P + 1) * P
        = ((b - (t + p)) * k / D * T / P + 1) * P + v * P + cdiv T P * P := by ring
    have e2 : ((b - (t + p)) * k / D + z) * T = (b - (t + p)) * k / D * T + z * T := Nat.add_mul ..
    omega

theorem red_mnde {N M k D b t p u v : Nat} (hM : 0 < M) (hD : 0 < D) (hk : k ≤ D) (hu : 0 < u)
    (huv : u ≤ v) (ht : t = M * (D * (u - 1) / k) / N) (hp : p * u ≤ (v - u) * t) (hb : t + p ≤ b) :
    cdiv (b * N / M * k) D ≤ cdiv ((b - (t + p)) * N / M * k) D + v := by
  have h1 : t * N ≤ D * (u - 1) / k * M := by rw [ht]; exact div_mul_le'
  have h2 : D * (u - 1) / k * k ≤ (u - 1) * D := div_mul_le'
  have hdrop := floor_drop (n := N) hM hb
  have hc := cdiv_mul_lt ((t + p) * N) hM
  generalize cdiv ((t + p) * N) M = z at *
  refine (ceil_drop hD hdrop).trans (Nat.add_le_add_left ?_ _)
  rw [cdiv_le_iff hD]
  -- t N k ≤ M D (u - 1)
  have ht' : t * (N * k) ≤ (u - 1) * (M * D) := by
    have e1 : t * N * k ≤ D * (u - 1) / k * M * k := Nat.mul_le_mul_right k h1
    have e2 : D * (u - 1) / k * k * M ≤ (u - 1) * D * M := Nat.mul_le_mul_right M h2
    have e3 : D * (u - 1) / k * M * k = D * (u - 1) / k * k * M := by ring
    have e4 : (u - 1) * (M * D) = (u - 1) * D * M := by ring
    have e5 : t * (N * k) = t * N * k := by ring
    omega
  -- (t + p) N k u ≤ M D (u - 1) v
  have hs : (t + p) * (N * k) ≤ (v - 1) * (M * D) := by
    apply Nat.le_of_mul_le_mul_right _ hu
    have e1 : p * u * (N * k) ≤ (v - u) * t * (N * k) := Nat.mul_le_mul_right _ hp
    have e2 : (v - u) * t * (N * k) ≤ (v - u) * ((u - 1) * (M * D)) := by rw [Nat.mul_assoc]; exact Nat.mul_le_mul_left _ ht'
    have e3 : t * (N * k) * u ≤ (u - 1) * (M * D) * u := Nat.mul_le_mul_right u ht'
    have e4 : (t + p) * (N * k) * u = t * (N * k) * u + p * u * (N * k) := by ring
    have e5 : (u - 1) * (M * D) * u + (v - u) * ((u - 1) * (M * D)) = (u - 1) * v * (M * D) := by
      have : (u - 1) * (M * D) * u + (v - u) * ((u - 1) * (M * D)) = (u - 1) * (u + (v - u)) * (M * D) := by ring
      rw [this, Nat.add_sub_cancel' huv]
    have e6 : (u - 1) * v ≤ (v - 1) * u := by
      have a1 : (u - 1) * v + v = u * v := by rw [← Nat.succ_mul]; congr 1; omega
      have a2 : (v - 1) * u + u = v * u := by rw [← Nat.succ_mul]; congr 1; omega
      have a3 : u * v = v * u := Nat.mul_comm ..
      omega
    have e7 : (u - 1) * v * (M * D) ≤ (v - 1) * u * (M * D) := Nat.mul_le_mul_right _ e6
    have e8 : (v - 1) * u * (M * D) = (v - 1) * (M * D) * u := by ring
    omega
  apply Nat.le_of_mul_le_mul_right _ hM
  have e1 : z * M * k ≤ ((t + p) * N + M) * k := Nat.mul_le_mul_right k hc.le
  have e2 : ((t + p) * N + M) * k = (t + p) * (N * k) + M * k := by ring
  have e3 : M * k ≤ M * D := Nat.mul_le_mul_left M hk
  have e4 : (v - 1) * (M * D) + M * D = v * (M * D) := by
    rw [← Nat.succ_mul]; congr 1; omega
  have e5 : v * D * M = v * (M * D) := by ring
  have e6 : z * k * M = z * M * k := by ring
  omega

/-- Lamports that a redemption with a protocol fee can cost the other LPs by rounding. -/
def AnyCalc.redeemSlack : AnyCalc → Nat
  | .spl c => if c.feeNum = 0 then 0 else cdiv c.totalLamports c.poolTokenSupply
  | _ => 0

/-- Paying out `t`, the least LST for `u ≤ v`, and `p`, worth at most `v - u` at the same rate, takes at most `v` from the value of the
reserves, up to the slack (no slack without `p`). -/
theorem AnyCalc.red {c : AnyCalc} (h : c.Usable) (ha : c.Answers) {b p u v : Nat} (hu : u ≠ 0) (huv : u ≤ v)
    (hp : p * u ≤ (v - u) * c.rmin u) (hb : c.rmin u + p ≤ b) :
    c.f b ≤ c.f (b - (c.rmin u + p)) + v + (if p = 0 then 0 else c.redeemSlack) := by
  have hu : 0 < u := Nat.pos_of_ne_zero hu
  have key : ∀ {n d : Nat}, 0 < d → c.f = (fun x => x * n / d) → c.rmin = (fun y => d * y / n) →
      c.f b ≤ c.f (b - (c.rmin u + p)) + v := by
    intro n d hd e1 e2
    rw [e2] at hp hb
    rw [e1, e2]
    exact red_floor hd hu huv div_mul_le' hp hb
  cases c with
  | lido c => exact (key (by have := h.2; omega) rfl rfl).trans (Nat.le_add_right _ _)
  | wsol =>
    refine (key (n := 1) (d := 1) (by decide) ?_ ?_).trans (Nat.le_add_right _ _)
    · funext x; simp [AnyCalc.f]
    · funext x; simp [AnyCalc.rmin]
  | spl c =>
    have hP : 0 < c.poolTokenSupply := by have := h.2.1; omega
    have hT : 0 < c.totalLamports := by have := h.1; omega
    by_cases hf : c.feeNum = 0
    · refine (key (n := c.totalLamports) (d := c.poolTokenSupply) hP ?_ ?_).trans (Nat.le_add_right _ _)
      · funext x; simp [AnyCalc.f, splFee, hf]
      · funext x; simp [AnyCalc.rmin, splFeeMin, hf]
    · have hD : 0 < c.feeDenom := by have := h.2.2; omega
      simp only [AnyCalc.f, AnyCalc.rmin, AnyCalc.redeemSlack, splFee, splFeeMin, hf, if_false] at *
      exact red_spl hD hP hu huv rfl hp hb
  | marinade c =>
    have hM : 0 < c.msolSupply := by have := h.2.1; omega
    obtain ⟨n, hn⟩ := ha
    have hn0 : 0 < n := by
      rcases Nat.eq_zero_or_pos n with e | e
      · subst e; exact absurd hn h.1
      · exact e
    have e : c.totalVirtualStaked.toOption.getD 0 = n := by rw [hn]; rfl
    by_cases hf : c.withdrawStakeAccountFeeCents = 0
    · refine (key (n := n) (d := c.msolSupply) hM ?_ ?_).trans (Nat.le_add_right _ _)
      · funext x; simp [AnyCalc.f, mndeFee, hf, e]
      · funext x; simp [AnyCalc.rmin, mndeFeeMin, hf, e]
    · have hk := h.2.2
      simp only [AnyCalc.f, AnyCalc.rmin, mndeFee, mndeFeeMin, hf, if_false, e] at *
      exact (red_mnde hM (by decide) (Nat.sub_le _ _) hu huv rfl hp hb).trans (Nat.le_add_right _ _)

/-! ### slopes -/

/-- Every calculator lies within one lamport above a line through the origin, and the least LST for a value lies below it. -/
theorem AnyCalc.slope {c : AnyCalc} (h : c.Usable) (ha : c.Answers) :
    ∃ N D, 0 < N ∧ 0 < D ∧ (∀ a, c.f a * D < a * N + D) ∧ (∀ y, c.rmin y * N ≤ y * D) := by
  have key : ∀ {n d : Nat}, 0 < n → 0 < d → c.f = (fun x => x * n / d) → c.rmin = (fun y => d * y / n) →
      ∃ N D, 0 < N ∧ 0 < D ∧ (∀ a, c.f a * D < a * N + D) ∧ (∀ y, c.rmin y * N ≤ y * D) := by
    intro n d hn hd e1 e2
    refine ⟨n, d, hn, hd, fun a => ?_, fun y => ?_⟩
    · rw [e1]; have := div_mul_le (a * n) d; simp only; omega
    · rw [e2]; exact div_mul_le'
  cases c with
  | lido c => exact key (by have := h.1; omega) (by have := h.2; omega) rfl rfl
  | wsol =>
    refine key (n := 1) (d := 1) (by decide) (by decide) ?_ ?_
    · funext x; simp [AnyCalc.f]
    · funext x; simp [AnyCalc.rmin]
  | spl c =>
    have hP : 0 < c.poolTokenSupply := by have := h.2.1; omega
    have hT : 0 < c.totalLamports := by have := h.1; omega
    by_cases hf : c.feeNum = 0
    · refine key (n := c.totalLamports) (d := c.poolTokenSupply) hT hP ?_ ?_
      · funext x; simp [AnyCalc.f, splFee, hf]
      · funext x; simp [AnyCalc.rmin, splFeeMin, hf]
    · have hD : c.feeNum < c.feeDenom := by have := h.2.2; omega
      refine ⟨(c.feeDenom - c.feeNum) * c.totalLamports, c.feeDenom * c.poolTokenSupply, Nat.mul_pos (by omega) hT,
        Nat.mul_pos (by omega) hP, fun a => ?_, fun y => ?_⟩
      · simp only [AnyCalc.f, splFee, hf, if_false]
        have h1 := div_mul_le (a * (c.feeDenom - c.feeNum)) c.feeDenom
        have h2 := div_mul_le (a * (c.feeDenom - c.feeNum) / c.feeDenom * c.totalLamports) c.poolTokenSupply
        generalize a * (c.feeDenom - c.feeNum) / c.feeDenom * c.totalLamports / c.poolTokenSupply = q at *
        generalize a * (c.feeDenom - c.feeNum) / c.feeDenom = s at *
        have e1 : q * c.poolTokenSupply * c.feeDenom ≤ s * c.totalLamports * c.feeDenom := Nat.mul_le_mul_right _ h2
        have e2 : s * c.feeDenom * c.totalLamports ≤ a * (c.feeDenom - c.feeNum) * c.totalLamports := Nat.mul_le_mul_right _ h1
        have e3 : s * c.feeDenom * c.totalLamports = s * c.totalLamports * c.feeDenom := by ring
        have e4 : q * (c.feeDenom * c.poolTokenSupply) = q * c.poolTokenSupply * c.feeDenom := by ring
        have e5 : a * ((c.feeDenom - c.feeNum) * c.totalLamports) = a * (c.feeDenom - c.feeNum) * c.totalLamports := by ring
        have e6 : 0 < c.feeDenom * c.poolTokenSupply := Nat.mul_pos (by omega) hP
        omega
      · simp only [AnyCalc.rmin, splFeeMin, hf, if_false]
        have h1 : c.feeDenom * (c.poolTokenSupply * y / c.totalLamports) / (c.feeDenom - c.feeNum) * (c.feeDenom - c.feeNum)
          ≤ c.poolTokenSupply * y / c.totalLamports * c.feeDenom := div_mul_le'
        have h2 : c.poolTokenSupply * y / c.totalLamports * c.totalLamports ≤ y * c.poolTokenSupply := div_mul_le'
        generalize c.feeDenom * (c.poolTokenSupply * y / c.totalLamports) / (c.feeDenom - c.feeNum) = q at *
        generalize c.poolTokenSupply * y / c.totalLamports = s at *
        have e1 : q * (c.feeDenom - c.feeNum) * c.totalLamports ≤ s * c.feeDenom * c.totalLamports := Nat.mul_le_mul_right _ h1
        have e2 : s * c.totalLamports * c.feeDenom ≤ y * c.poolTokenSupply * c.feeDenom := Nat.mul_le_mul_right _ h2
        have e3 : s * c.feeDenom * c.totalLamports = s * c.totalLamports * c.feeDenom := by ring
        have e4 : q * ((c.feeDenom - c.feeNum) * c.totalLamports) = q * (c.feeDenom - c.feeNum) * c.totalLamports := by ring
        have e5 : y * (c.feeDenom * c.poolTokenSupply) = y * c.poolTokenSupply * c.feeDenom := by ring
        omega
  | marinade c =>
    have hM : 0 < c.msolSupply := by have := h.2.1; omega
    obtain ⟨n, hn⟩ := ha
    have hn0 : 0 < n := by
      rcases Nat.eq_zero_or_pos n with e | e
      · subst e; exact absurd hn h.1
      · exact e
    have e : c.totalVirtualStaked.toOption.getD 0 = n := by rw [hn]; rfl
    by_cases hf : c.withdrawStakeAccountFeeCents = 0
    · refine key (n := n) (d := c.msolSupply) hn0 hM ?_ ?_
      · funext x; simp [AnyCalc.f, mndeFee, hf, e]
      · funext x; simp [AnyCalc.rmin, mndeFeeMin, hf, e]
    · have hk := h.2.2
      have hk0 : 0 < MAX_BP_CENTS - c.withdrawStakeAccountFeeCents := by omega
      have hD : 0 < MAX_BP_CENTS := by decide
      refine ⟨n * (MAX_BP_CENTS - c.withdrawStakeAccountFeeCents), c.msolSupply * MAX_BP_CENTS, Nat.mul_pos hn0 hk0,
        Nat.mul_pos hM hD, fun a => ?_, fun y => ?_⟩
      · simp only [AnyCalc.f, mndeFee, hf, if_false, e]
        generalize MAX_BP_CENTS - c.withdrawStakeAccountFeeCents = k at *
        generalize MAX_BP_CENTS = D at *
        generalize c.msolSupply = M at *
        have h1 := div_mul_le (a * n) M
        have h2 := cdiv_mul_lt (a * n / M * k) hD
        generalize cdiv (a * n / M * k) D = q at *
        generalize a * n / M = s at *
        have e1 : q * D * M < (s * k + D) * M := Nat.mul_lt_mul_of_pos_right h2 hM
        have e2 : s * M * k ≤ a * n * k := Nat.mul_le_mul_right _ h1
        have e3 : (s * k + D) * M = s * M * k + M * D := by ring
        have e4 : q * (M * D) = q * D * M := by ring
        have e5 : a * (n * k) = a * n * k := by ring
        omega
      · simp only [AnyCalc.rmin, mndeFeeMin, hf, if_false, e]
        generalize MAX_BP_CENTS - c.withdrawStakeAccountFeeCents = k at *
        generalize MAX_BP_CENTS = D at *
        generalize c.msolSupply = M at *
        have h1 : M * (D * (y - 1) / k) / n * n ≤ D * (y - 1) / k * M := div_mul_le'
        have h2 : D * (y - 1) / k * k ≤ (y - 1) * D := div_mul_le'
        have h3 : (y - 1) * D ≤ y * D := Nat.mul_le_mul_right D (by omega)
        generalize M * (D * (y - 1) / k) / n = q at *
        generalize D * (y - 1) / k = s at *
        have e1 : q * n * k ≤ s * M * k := Nat.mul_le_mul_right _ h1
        have e2 : s * k * M ≤ y * D * M := Nat.mul_le_mul_right _ (h2.trans h3)
        have e3 : s * M * k = s * k * M := by ring
        have e4 : q * (n * k) = q * n * k := by ring
        have e5 : y * (M * D) = y * D * M := by ring
        omega

/-- An amount that is worth at most `g` at the rate `out` for `outSol`, where `out` is the least LST for `outSol`, is valued at
most `g`. -/
theorem AnyCalc.fee_value {c : AnyCalc} (h : c.Usable) (ha : c.Answers) {fee g y : Nat} (hy : y ≠ 0)
    (hf : fee * y ≤ g * c.rmin y) : c.f fee ≤ g := by
  obtain ⟨N, D, hN, hD, h1, h2⟩ := c.slope h ha
  have h3 : fee * N ≤ g * D := by
    apply Nat.le_of_mul_le_mul_right _ (Nat.pos_of_ne_zero hy)
    have e1 : fee * y * N ≤ g * c.rmin y * N := Nat.mul_le_mul_right N hf
    have e2 : g * c.rmin y * N ≤ g * (y * D) := by rw [Nat.mul_assoc]; exact Nat.mul_le_mul_left g (h2 y)
    have e3 : fee * N * y = fee * y * N := by ring
    have e4 : g * D * y = g * (y * D) := by ring
    omega
  have h4 := h1 fee
  by_contra hc
  have h5 := Nat.mul_le_mul_right D (Nat.lt_of_not_le hc)
  rw [Nat.succ_mul] at h5
  omega

/-! ### adding amounts -/

theorem floor_add_le {n d a b : Nat} (hd : 0 < d) : (a + b) * n / d ≤ a * n / d + b * n / d + 1 := by
  rw [← Nat.lt_add_one_iff, div_lt_mul hd]
  have h1 := lt_div_mul (a * n) hd
  have h2 := lt_div_mul (b * n) hd
  have e1 : (a + b) * n = a * n + b * n := Nat.add_mul ..
  have e2 : (a * n / d + b * n / d + 1 + 1) * d = (a * n / d + 1) * d + (b * n / d + 1) * d := by ring
  omega

/-- Lamports by which the value of a sum can exceed the sum of the values. -/
def AnyCalc.sumSlack : AnyCalc → Nat
  | .spl c => if c.feeNum = 0 then 1 else c.totalLamports / c.poolTokenSupply + 2
  | _ => 1

theorem AnyCalc.f_add_le {c : AnyCalc} (h : c.Usable) (a b : Nat) : c.f (a + b) ≤ c.f a + c.f b + c.sumSlack := by
  cases c with
  | lido c => exact floor_add_le (by have := h.2; omega)
  | wsol => exact Nat.le_succ _
  | spl c =>
    have hP : 0 < c.poolTokenSupply := by have := h.2.1; omega
    by_cases hf : c.feeNum = 0
    · simp only [AnyCalc.f, AnyCalc.sumSlack, splFee, hf, if_true]
      exact floor_add_le hP
    · have hD : 0 < c.feeDenom := by have := h.2.2; omega
      simp only [AnyCalc.f, AnyCalc.sumSlack, splFee, hf, if_false]
      have h1 := floor_add_le (n := c.feeDenom - c.feeNum) (a := a) (b := b) hD
      have h2 : (a + b) * (c.feeDenom - c.feeNum) / c.feeDenom * c.totalLamports / c.poolTokenSupply ≤
          (a * (c.feeDenom - c.feeNum) / c.feeDenom + b * (c.feeDenom - c.feeNum) / c.feeDenom + 1) * c.totalLamports /
            c.poolTokenSupply := Nat.div_le_div_right (Nat.mul_le_mul_right _ h1)
      have h3 := floor_add_le (n := c.totalLamports) (a := a * (c.feeDenom - c.feeNum) / c.feeDenom +
        b * (c.feeDenom - c.feeNum) / c.feeDenom) (b := 1) hP
      have h4 := floor_add_le (n := c.totalLamports) (a := a * (c.feeDenom - c.feeNum) / c.feeDenom)
        (b := b * (c.feeDenom - c.feeNum) / c.feeDenom) hP
      rw [Nat.one_mul] at h3
      omega
  | marinade c =>
    have hM : 0 < c.msolSupply := by have := h.2.1; omega
    generalize hn : c.totalVirtualStaked.toOption.getD 0 = n
    by_cases hf : c.withdrawStakeAccountFeeCents = 0
    · simp only [AnyCalc.f, AnyCalc.sumSlack, mndeFee, hf, if_true, hn]
      exact floor_add_le hM
    · have hD : 0 < MAX_BP_CENTS := by decide
      simp only [AnyCalc.f, AnyCalc.sumSlack, mndeFee, hf, if_false, hn]
      have h1 := floor_add_le (n := n) (a := a) (b := b) hM
      rw [Nat.add_assoc] at h1
      have h2 := ceil_drop (k := MAX_BP_CENTS - c.withdrawStakeAccountFeeCents) hD h1
      have h3 := ceil_drop (k := MAX_BP_CENTS - c.withdrawStakeAccountFeeCents) hD
        (Nat.le_refl (b * n / c.msolSupply + 1))
      have h4 : cdiv (1 * (MAX_BP_CENTS - c.withdrawStakeAccountFeeCents)) MAX_BP_CENTS ≤ 1 := by
        rw [cdiv_le_iff hD]; omega
      omega

/-- If adding `t` to `b` raises the value by more than `y`, then the least LST for `y` is at most `t`. -/
theorem AnyCalc.rmin_le_of_gain {c : AnyCalc} (h : c.Usable) (ha : c.Answers) {b t y : Nat} (hg : c.f b + y < c.f (b + t)) :
    c.rmin y ≤ t := by
  have hc := c.conv h ha
  have simple : c.sumSlack = 1 → c.rmin y ≤ t := by
    intro e
    have h1 := AnyCalc.f_add_le h b t
    exact (hc.minMono (show y ≤ c.f t by omega)).trans (hc.backMin t)
  cases c with
  | lido c => exact simple rfl
  | wsol => exact simple rfl
  | marinade c => exact simple rfl
  | spl c =>
    by_cases hf : c.feeNum = 0
    · exact simple (by simp [AnyCalc.sumSlack, hf])
    · have hP : 0 < c.poolTokenSupply := by have := h.2.1; omega
      have hT : 0 < c.totalLamports := by have := h.1; omega
      have hD : c.feeNum < c.feeDenom := by have := h.2.2; omega
      have hfee := splFee_conv h.2.2
      have h1 : splFee c.feeNum c.feeDenom (b + t) ≤ splFee c.feeNum c.feeDenom b + splFee c.feeNum c.feeDenom t + 1 := by
        simp only [splFee, hf, if_false]; exact floor_add_le (by omega)
      have h2 : c.poolTokenSupply * y / c.totalLamports ≤ splFee c.feeNum c.feeDenom t := by
        rw [← Nat.lt_add_one_iff, div_lt_mul hT]
        simp only [AnyCalc.f] at hg
        generalize splFee c.feeNum c.feeDenom b = gb at *
        generalize splFee c.feeNum c.feeDenom t = gt at *
        generalize splFee c.feeNum c.feeDenom (b + t) = g at *
        generalize c.totalLamports = T at *
        generalize c.poolTokenSupply = P at *
        have h3 := lt_div_mul (gb * T) hP
        have h4 := div_mul_le (g * T) P
        have h5 := Nat.mul_le_mul_right T h1
        have h6 := Nat.mul_le_mul_right P (Nat.succ_le_of_lt hg)
        have e1 : (gb * T / P + y).succ * P = (gb * T / P + 1) * P + P * y := by rw [Nat.succ_eq_add_one]; ring
        have e2 : (gb + gt + 1) * T = gb * T + (gt + 1) * T := by ring
        omega
      exact (hfee.minMono h2).trans (hfee.backMin t)

end S
