import Verif.Props.CalcPrograms
import Verif.Props.Conversions
import Verif.Proofs.LiveCalc
/-!
# C71: an LST is worth what its stake pool pays out for it, and conversions back are tight

The calculators' answers are compared with the withdrawal rules of the stake pools themselves, stated here independently of the code.
-/
set_option autoImplicit false
namespace S

/-! ### Specification: withdrawal rules of the stake pools -/

/-- Lido: pool tokens are shares of the SOL balance, rounded down. -/
def LidoCalc.payout (c : LidoCalc) (tokens : Nat) : Nat := tokens * c.solBalance / c.stSolSupply

/-- SPL stake pool: the withdrawal fee is taken in pool tokens, rounded up; the rest are shares of the pool's lamports, rounded down. -/
def SplCalc.payout (c : SplCalc) (tokens : Nat) : Nat :=
  let fee := if c.feeNum = 0 then 0 else (tokens * c.feeNum + (c.feeDenom - 1)) / c.feeDenom
  (tokens - fee) * c.totalLamports / c.poolTokenSupply

/-- Marinade's lamports: staked, in cool-down and in the reserve, except those owed to holders of delayed-unstake tickets. -/
def MarinadeCalc.backing (c : MarinadeCalc) : Nat :=
  c.totalActiveBalance + c.delayedUnstakeCoolingDown + c.emergencyCoolingDown + c.availableReserveBalance - c.circulatingTicketBalance

/-- Marinade: mSOL are shares of the backing, rounded down; the fee, in hundredths of a basis point, is taken from the lamports, rounded down. -/
def MarinadeCalc.payout (c : MarinadeCalc) (msol : Nat) : Nat :=
  let gross := msol * c.backing / c.msolSupply
  gross - gross * c.withdrawStakeAccountFeeCents / 1000000

def AnyCalc.payout : AnyCalc → Nat → Nat
  | .lido c => c.payout
  | .spl c => c.payout
  | .marinade c => c.payout
  | .wsol => fun x => x

/-- The amounts a calculator handles on the way fit into 64 bits. -/
def AnyCalc.Fits : AnyCalc → Nat → Prop
  | .marinade c => fun x =>
    c.totalActiveBalance + c.delayedUnstakeCoolingDown + c.emergencyCoolingDown + c.availableReserveBalance < U64 ∧ x * c.backing / c.msolSupply < U64
  | .wsol => fun _ => True
  | c => fun x => c.payout x < U64

/-- How many base units of the LST the ends of a range may be off: one, and what the withdrawal fee (SPL) or the price of mSOL (Marinade) makes of another one. -/
def AnyCalc.slack : AnyCalc → Nat
  | .lido _ => 1
  | .spl c => if c.feeNum = 0 then 1 else 1 + (c.feeDenom + (c.feeDenom - c.feeNum) - 1) / (c.feeDenom - c.feeNum)
  | .marinade c => 1 + (c.msolSupply + c.backing - 1) / c.backing
  | .wsol => 0

/-! ### Proofs -/

theorem MarinadeCalc.staked_ok {c : MarinadeCalc} {n : Nat} :
    c.totalVirtualStaked = .ok n ↔ n = c.backing ∧
      c.totalActiveBalance + c.delayedUnstakeCoolingDown + c.emergencyCoolingDown + c.availableReserveBalance < U64 := by
  simp only [MarinadeCalc.totalVirtualStaked, bind_ok, addU64_ok, pure_ok, MarinadeCalc.backing]
  constructor
  · rintro ⟨_, ⟨rfl, h1⟩, _, ⟨rfl, h2⟩, _, ⟨rfl, h3⟩, rfl⟩
    constructor <;> omega
  · rintro ⟨rfl, h⟩
    exact ⟨_, ⟨rfl, by omega⟩, _, ⟨rfl, by omega⟩, _, ⟨rfl, by omega⟩, by omega⟩

theorem splFee_payout {n d x : Nat} (h : n = 0 ∨ n < d) : splFee n d x = x - (if n = 0 then 0 else (x * n + (d - 1)) / d) := by
  rw [← (ceilFee_eq h).1, ceilFee]
  by_cases hn : n = 0
  · simp [hn]
  · rw [if_neg (by omega), if_neg hn, cdiv]
    have : x * n + d - 1 = x * n + (d - 1) := by omega
    rw [this]

/-- C71. A calculator over a usable stake pool values an LST amount at exactly what the pool pays out for it, and it answers whenever the amounts fit
into 64 bits. -/
theorem C71_value (L : RatioLib) {c : AnyCalc} (hc : c.Usable) {x : Nat} {r : Range} :
    (c.calculator L).lstToSol x = .ok r ↔ r = ⟨c.payout x, c.payout x⟩ ∧ c.Fits x := by
  cases c with
  | wsol =>
    simp only [AnyCalc.calculator, wsolCalculator, pure_ok, AnyCalc.payout, AnyCalc.Fits, Range.single]
    exact ⟨fun h => ⟨h.symm, trivial⟩, fun h => h.1.symm⟩
  | lido c =>
    obtain ⟨hb, hs⟩ := hc
    simp only [AnyCalc.calculator, LidoCalc.calculator, bind_ok, floorApply_ok' hs, pure_ok, AnyCalc.payout, LidoCalc.payout, AnyCalc.Fits, Range.single]
    constructor
    · rintro ⟨_, ⟨rfl, h⟩, rfl⟩; exact ⟨rfl, h⟩
    · rintro ⟨rfl, h⟩; exact ⟨_, ⟨rfl, h⟩, rfl⟩
  | spl c =>
    obtain ⟨ht, hs, hf⟩ := hc
    simp only [AnyCalc.calculator, SplCalc.calculator, bind_ok, feeNew_ok, ceilFeeApply_ok hf, floorApply_ok' hs, pure_ok, AnyCalc.payout, SplCalc.payout,
      AnyCalc.Fits, Range.single, ← splFee_payout hf]
    constructor
    · rintro ⟨_, h0, _, rfl, _, ⟨rfl, h⟩, rfl⟩; exact ⟨rfl, h⟩
    · rintro ⟨rfl, h⟩; exact ⟨(), by omega, _, rfl, _, ⟨rfl, h⟩, rfl⟩
  | marinade c =>
    obtain ⟨h0, hs, hf⟩ := hc
    simp only [AnyCalc.calculator, MarinadeCalc.calculator, bind_ok, feeNew_ok, floorFeeApply, floorApply_ok' hs, pure_ok, AnyCalc.payout,
      MarinadeCalc.payout, AnyCalc.Fits, Range.single, MarinadeCalc.staked_ok, subU64_ok]
    have hf' : c.withdrawStakeAccountFeeCents < 1000000 := hf
    have hf'' : c.withdrawStakeAccountFeeCents ≤ MAX_BP_CENTS := hf.le
    have e : ∀ g, floorFee c.withdrawStakeAccountFeeCents MAX_BP_CENTS g = g * c.withdrawStakeAccountFeeCents / 1000000 := by
      intro g
      simp only [floorFee, MAX_BP_CENTS]
      split
      · rename_i h; rcases h with h | h
        · simp [h]
        · cases h
      · rfl
    have hle : ∀ g, g * c.withdrawStakeAccountFeeCents / 1000000 ≤ g := by
      intro g
      rw [Nat.div_le_iff_le_mul_add_pred (by decide)]
      have : g * c.withdrawStakeAccountFeeCents ≤ g * 1000000 := Nat.mul_le_mul_left _ (by omega)
      omega
    constructor
    · rintro ⟨_, ⟨rfl, h1⟩, _, ⟨rfl, h2⟩, _, h3, _, ⟨_, ⟨rfl, h4⟩, rfl⟩, rfl⟩
      exact ⟨by rw [e], h1, h2⟩
    · rintro ⟨rfl, h1, h2⟩
      refine ⟨_, ⟨rfl, h1⟩, _, ⟨rfl, h2⟩, (), hf'', _, ⟨_, ⟨rfl, ?_⟩, rfl⟩, ?_⟩
      · rw [e]; exact hle _
      · rw [e]

/-- The conversions of the proofs are the payouts. -/
theorem AnyCalc.f_payout {c : AnyCalc} (hc : c.Usable) (ha : c.Answers) (x : Nat) : c.f x = c.payout x := by
  cases c with
  | wsol => rfl
  | lido c => rfl
  | spl c => simp only [AnyCalc.f, AnyCalc.payout, SplCalc.payout, splFee_payout hc.2.2]
  | marinade c =>
    obtain ⟨n, hn⟩ := ha
    have hb := (MarinadeCalc.staked_ok.1 hn).1
    simp only [AnyCalc.f, AnyCalc.payout, MarinadeCalc.payout, hn, Except.toOption, Option.getD_some, hb]
    generalize x * c.backing / c.msolSupply = g
    by_cases hz : c.withdrawStakeAccountFeeCents = 0
    · simp [mndeFee, hz]
    · rw [mndeFee, if_neg hz, ← floorFee_after hc.2.2]

theorem floor_tight {n d y : Nat} (hn : 0 < n) (hd : 0 < d) :
    y ≤ (d * y / n + 1) * n / d ∧ (cdiv (d * (y + 1)) n - 1) * n / d ≤ y := by
  constructor
  · rw [le_div hd]
    have := lt_div_mul (d * y) hn
    rw [Nat.mul_comm]; omega
  · rw [← Nat.lt_succ_iff, div_lt_mul hd]
    have := cdiv_mul_lt (d * (y + 1)) hn
    rw [Nat.sub_mul, Nat.one_mul, Nat.succ_eq_add_one, Nat.mul_comm (y + 1)]
    have h0 : 0 < d * (y + 1) := Nat.mul_pos hd (by omega)
    omega

/-- C71. The LST range of a SOL value is tight: `slack` base units more than its minimum are worth the value, and its maximum less `slack` base units is not
worth more. -/
theorem C71_tight (L : RatioLib) {c : AnyCalc} (hc : c.Usable) {v : Nat} {r : Range} (h : (c.calculator L).solToLst v = .ok r) :
    v ≤ c.payout (r.min + c.slack) ∧ c.payout (r.max - c.slack) ≤ v := by
  have ha := c.answers_of (.inr h)
  rw [(c.is L hc).solToLst h, ← c.f_payout hc ha, ← c.f_payout hc ha]
  dsimp only
  cases c with
  | wsol => exact ⟨Nat.le_refl _, Nat.le_refl _⟩
  | lido c => exact floor_tight (Nat.pos_of_ne_zero hc.1) (Nat.pos_of_ne_zero hc.2)
  | spl c =>
    obtain ⟨ht, hs, hf⟩ := hc
    have ft := floor_tight (y := v) (Nat.pos_of_ne_zero ht) (Nat.pos_of_ne_zero hs)
    by_cases hn : c.feeNum = 0
    · simpa only [AnyCalc.f, AnyCalc.rmin, AnyCalc.rmax, AnyCalc.slack, splFee, splFeeMin, splFeeMax, hn, if_true] using ft
    · have hlt : c.feeNum < c.feeDenom := by omega
      obtain ⟨e, he⟩ : ∃ e, e = c.feeDenom - c.feeNum := ⟨_, rfl⟩
      have he0 : 0 < e := by omega
      have hd0 : 0 < c.feeDenom := by omega
      have hK : c.feeDenom ≤ cdiv c.feeDenom e * e := le_cdiv_mul _ he0
      simp only [AnyCalc.f, AnyCalc.rmin, AnyCalc.rmax, AnyCalc.slack, splFee, splFeeMin, splFeeMax, hn, if_false, ← he]
      have hK' : (c.feeDenom + e - 1) / e = cdiv c.feeDenom e := rfl
      rw [hK']
      generalize cdiv c.feeDenom e = K at hK
      constructor
      · generalize c.poolTokenSupply * v / c.totalLamports = z at ft
        have h1 := lt_div_mul (c.feeDenom * z) he0
        refine ft.1.trans (Nat.div_le_div_right (Nat.mul_le_mul_right _ ?_))
        rw [le_div hd0]
        have : (c.feeDenom * z / e + (1 + K)) * e = (c.feeDenom * z / e + 1) * e + K * e := by ring
        rw [this, Nat.add_mul, Nat.one_mul, Nat.mul_comm z]
        omega
      · generalize hZ : cdiv (c.poolTokenSupply * (v + 1)) c.totalLamports = Z at ft
        have hZ0 : 0 < Z := by
          rw [← hZ]
          have := le_cdiv_mul (c.poolTokenSupply * (v + 1)) (Nat.pos_of_ne_zero ht)
          rcases Nat.eq_zero_or_pos (cdiv (c.poolTokenSupply * (v + 1)) c.totalLamports) with h | h
          · rw [h, Nat.zero_mul] at this
            have h0 : 0 < c.poolTokenSupply * (v + 1) := Nat.mul_pos (by omega) (by omega)
            omega
          · exact h
        have h1 := cdiv_mul_lt (c.feeDenom * (Z + 1)) he0
        refine (Nat.div_le_div_right (Nat.mul_le_mul_right _ ?_)).trans ft.2
        apply Nat.le_sub_one_of_lt
        rw [div_lt_mul hd0, Nat.sub_mul, Nat.add_mul, Nat.one_mul]
        have h2 : 0 < Z * c.feeDenom := Nat.mul_pos hZ0 hd0
        rw [Nat.mul_add, Nat.mul_one, Nat.mul_comm c.feeDenom Z] at h1
        rw [Nat.mul_add, Nat.mul_one, Nat.mul_comm c.feeDenom Z]
        omega
  | marinade c =>
    obtain ⟨n, hn⟩ := ha
    obtain ⟨h0, hm, hf⟩ := hc
    have hn0 : n ≠ 0 := by rintro rfl; exact h0 hn
    have hb := (MarinadeCalc.staked_ok.1 hn).1
    have hN : 0 < n := by omega
    have hM : 0 < c.msolSupply := by omega
    have hK : c.msolSupply ≤ cdiv c.msolSupply n * n := le_cdiv_mul _ hN
    simp only [AnyCalc.f, AnyCalc.rmin, AnyCalc.rmax, AnyCalc.slack, hn, Except.toOption, Option.getD_some, ← hb]
    have hK' : (c.msolSupply + n - 1) / n = cdiv c.msolSupply n := rfl
    rw [hK']
    by_cases hz : c.withdrawStakeAccountFeeCents = 0
    · simp only [mndeFee, mndeFeeMin, mndeFeeMax, hz, if_true]
      have ft := floor_tight (y := v) hN hM
      constructor
      · exact ft.1.trans (Nat.div_le_div_right (Nat.mul_le_mul_right _ (by omega)))
      · exact (Nat.div_le_div_right (Nat.mul_le_mul_right _ (by omega))).trans ft.2
    · simp only [mndeFee, mndeFeeMin, mndeFeeMax, hz, if_false]
      generalize MAX_BP_CENTS = D at hf
      obtain ⟨e, he⟩ : ∃ e, e = D - c.withdrawStakeAccountFeeCents := ⟨_, rfl⟩
      have he0 : 0 < e := by omega
      have hD0 : 0 < D := by omega
      rw [← he]
      constructor
      · rcases Nat.eq_zero_or_pos v with hv | hv
        · omega
        generalize hz' : D * (v - 1) / e = z
        have h1 : D * (v - 1) < (z + 1) * e := by rw [← hz']; exact lt_div_mul _ he0
        have h2 : z + 1 ≤ (c.msolSupply * z / n + (1 + cdiv c.msolSupply n)) * n / c.msolSupply := by
          rw [le_div hM]
          have h3 := lt_div_mul (c.msolSupply * z) hN
          have : (c.msolSupply * z / n + (1 + cdiv c.msolSupply n)) * n = (c.msolSupply * z / n + 1) * n + cdiv c.msolSupply n * n := by ring
          rw [this, Nat.add_mul z, Nat.one_mul, Nat.mul_comm z]
          omega
        have h3 := Nat.mul_le_mul_right e h2
        generalize (c.msolSupply * z / n + (1 + cdiv c.msolSupply n)) * n / c.msolSupply * e = a at h3
        by_contra hc
        have h4 : cdiv a D ≤ v - 1 := by omega
        rw [cdiv_le_iff hD0, Nat.mul_comm] at h4
        omega
      · generalize hZ : cdiv (D * v) e = Z
        have h1 : Z * e < D * v + e := by rw [← hZ]; exact cdiv_mul_lt _ he0
        rw [cdiv_le_iff hD0]
        generalize hx : cdiv (c.msolSupply * (Z + 1)) n - (1 + cdiv c.msolSupply n) = x
        have h2 := cdiv_mul_lt (c.msolSupply * (Z + 1)) hN
        rw [Nat.mul_add, Nat.mul_one] at h2
        rcases Nat.eq_zero_or_pos x with hx0 | hx0
        · rw [hx0]; simp
        have h3 : x * n < Z * c.msolSupply := by
          rw [← hx, Nat.sub_mul, Nat.add_mul, Nat.one_mul, Nat.mul_add, Nat.mul_one, Nat.mul_comm Z]
          have h4 : 0 < (cdiv (c.msolSupply * (Z + 1)) n - (1 + cdiv c.msolSupply n)) * n := Nat.mul_pos (by omega) hN
          rw [Nat.sub_mul, Nat.add_mul, Nat.one_mul, Nat.mul_add, Nat.mul_one] at h4
          omega
        rw [← div_lt_mul hM] at h3
        generalize x * n / c.msolSupply = u at h3
        have h5 : (u + 1) * e ≤ Z * e := Nat.mul_le_mul_right _ h3
        rw [Nat.add_mul, Nat.one_mul] at h5
        rw [Nat.mul_comm v]
        omega

/-- C71, on the programs: a calculator program asked for the value of `x` base units answers what the stake pool found in the accounts given pays out for them. -/
theorem C71_program {L : RatioLib} {pc : PoolCfg} {ch : OnChain} {st st' : Option CalcState} {pid : Pubkey} {accs : List Acc} {x : Nat} {r : Range}
    (hx : x < U64) (h : calcInstruction L pc ch st pid accs (CalcReq.lstToSol x).encode = .ok (st', some r)) :
    ∃ mint pool pd c, ConversionAccs pc accs mint pool pd ∧ UsablePool pc ch pool mint c ∧ (c.Usable → r = ⟨c.payout x, c.payout x⟩) := by
  obtain ⟨-, -, mint, pool, pd, s, c, h1, h2, -, -, -, h3⟩ := (C28_answers (q := .lstToSol x) hx).1 h
  exact ⟨mint, pool, pd, c, h1, h2, fun hu => ((C71_value L hu).1 h3).1⟩

-- the pools of the repository's fixtures: 1 jitoSOL pays out 1.072326756 SOL, 1 mSOL 1.162900315 SOL, and ranges are tight to 3 and 2 base units
example : exJito.payout 1000000000 = 1072326756 ∧ exJito.slack = 3 ∧ exJito.Fits 1000000000 := by
  refine ⟨by decide +kernel, by decide +kernel, ?_⟩
  show exJito.payout 1000000000 < U64
  decide +kernel
example : exMarinade.payout 1000000000 = 1162900315 ∧ exMarinade.slack = 2 := by decide +kernel
example : (exMarinade.calculator .ex).lstToSol 1000000000 = .ok ⟨1162900315, 1162900315⟩ :=
  (C71_value .ex (c := exMarinade) ⟨by decide +kernel, by decide, by decide⟩).2 ⟨by decide +kernel, by decide +kernel, by decide +kernel⟩
-- tickets do not back mSOL, and a pool in cool-down is still backed
example : (MarinadeCalc.payout ⟨false, 100, 50, 1000, 20, 170, 500, true, 0⟩ 10) = 20 := by decide

end S
