import Verif.Props.LpPrice
import Verif.Props.FlatFee
/-
C79: others' trades before a redemption never lower what it pays.
-/
set_option autoImplicit false
namespace S

/-! ### Specification -/

/-- A redemption of `lp` LP tokens for the LST of mint `m`, paying `out` of it: LP tokens leave the account at position 3, `out` arrives at position 2. -/
def Redeems (cfg : Cfg) (w w' : World) (accs : List Acc) (i lp : Nat) (m : Pubkey) (out : Nat) : Prop :=
  ∃ fee p s signer userLst userLp feeAcc res, LiqParties cfg w accs i p s signer userLst userLp feeAcc res ∧ s.mint = m ∧
    ∀ k, bal w'.led k + only userLp.key lp k + only res.key (out + fee) k = bal w.led k + only userLst.key out k + only feeAcc.key fee k

/-! ### Proofs -/

theorem cdiv_fee_mono {x y b : Nat} (h : x ≤ y) (hb : b ≤ 10000) : x - cdiv (x * b) 10000 ≤ y - cdiv (y * b) 10000 := by
  obtain ⟨d, rfl⟩ := Nat.le.dest h
  have h1 : cdiv ((x + d) * b) 10000 ≤ cdiv (x * b) 10000 + d := by
    rw [cdiv_le_iff (by decide)]
    have h2 : x * b ≤ cdiv (x * b) 10000 * 10000 := (cdiv_le_iff (by decide)).1 (Nat.le_refl _)
    have h3 : d * b ≤ d * 10000 := Nat.mul_le_mul_left d hb
    rw [Nat.add_mul, Nat.add_mul]; omega
  omega

section
variable {cfg : Cfg} {L : RatioLib} {val : Valuation} {fc : FlatCfg} {F : FlatFee}

/-- C79. Suppose the LST to be redeemed for is recorded at its value. Whatever transactions come before a redemption (of anyone: trades, deposits,
redemptions, rebalances, administration) while the LSTs keep their value and deposits and redemptions cause no rounding loss, the redemption pays at least
what it would have paid at once. (Calculators and the withdrawal fee of the pricing program are the same at both times.) -/
theorem C79_redeem_later {w w₁' w₂' : World} (hr : Reachable cfg L w) (hb : Backed cfg val w) {h : List (Tx cfg)}
    (hv : Rising L val (historyEvents L w h) val 0) (hS : ∀ e ∈ historyEvents L w h, lpSupply e.pre ≠ 0 ∧ lpSupply e.post ≠ 0)
    (huse : ∀ m, (val m).Usable) (hF : F.Ok fc)
    {env₁ env₂ : Env cfg} (hq₁ : env₁.Quiet) (hq₂ : env₂.Quiet) (hf₁ : Follows L env₁ val w) (hf₂ : Follows L env₂ val (runHistory L w h))
    (hp₁ : ∀ p, w.ctl.pool = some p → env₁.FlatPriced L fc F p.pricingProgram)
    (hp₂ : ∀ p, (runHistory L w h).ctl.pool = some p → env₂.FlatPriced L fc F p.pricingProgram)
    {tx₁ tx₂ : TxInfo} {accs₁ accs₂ : List Acc} {args₁ args₂ : RemoveLiquidityArgs} (hlp : args₁.lpTokenAmount = args₂.lpTokenAmount) {m : Pubkey}
    (hm₁ : ∃ s, w.ctl.lsts[args₁.lstIndex]? = some s ∧ s.mint = m ∧ ∀ k, IsReserves cfg w s k → s.solValue = (val m).f (bal w.led k))
    (hm₂ : ∃ s, (runHistory L w h).ctl.lsts[args₂.lstIndex]? = some s ∧ s.mint = m)
    (h₁ : processIx cfg L env₁ tx₁ w accs₁ (.removeLiquidity args₁) = .ok w₁')
    (h₂ : processIx cfg L env₂ tx₂ (runHistory L w h) accs₂ (.removeLiquidity args₂) = .ok w₂') :
    ∃ out₁ out₂, Redeems cfg w w₁' accs₁ args₁.lstIndex args₁.lpTokenAmount m out₁ ∧
      Redeems cfg (runHistory L w h) w₂' accs₂ args₂.lstIndex args₂.lpTokenAmount m out₂ ∧ out₁ ≤ out₂ := by
  obtain ⟨s₁, hs₁, hsm₁, hcur⟩ := hm₁
  obtain ⟨s₂, hs₂, hsm₂⟩ := hm₂
  have hb₂ : Backed cfg val (runHistory L w h) := C51_backed hr hb hv
  have hprice := C51_lp_price hr hb hv hS
  rw [add_zero] at hprice
  obtain ⟨p, s, signer, userLst, userLp, feeAcc, res, mi, r0, total, v, vAfter, out, fee, hl, hmi, _, _, a0, ht, hval, ap, _, ac, hone, _, hne, _, hbal, hle, _⟩ :=
    C07_removeLiquidity hq₁ h₁
  obtain ⟨p', s', signer', userLst', userLp', feeAcc', res', mi', r0', total', v', vAfter', out', fee', hl', hmi', _, _, a0', ht', hval', ap', _, ac', hone', _,
    hne', _, hbal', hle', _⟩ := C07_removeLiquidity hq₂ h₂
  have es := hl.entry; rw [hs₁] at es; injection es with es; subst es
  have es' := hl'.entry; rw [hs₂] at es'; injection es' with es'; subst es'
  refine ⟨out.min, out'.min, ⟨fee, p, s₁, _, _, _, _, _, hl, hsm₁, hbal⟩, ⟨fee', p', s₂, _, _, _, _, _, hl', hsm₂, hbal'⟩, ?_⟩
  -- the synced totals
  have hr₁ : IsReserves cfg w s₁ res.key := by obtain ⟨m, a, b, _⟩ := hl.derived; exact ⟨m, a, b⟩
  have hr₂ : IsReserves cfg (runHistory L w h) s₂ res'.key := by obtain ⟨m, a, b, _⟩ := hl'.derived; exact ⟨m, a, b⟩
  have lst : ∀ {env : Env cfg} {n : Nat} {l : Ledger} {s : LstState} {x : Nat} {r : Range}, env.Values L s.solValueCalculator s.mint (val s.mint) →
      CalcAnswer env n l s.solValueCalculator s.mint (.lstToSol x) r → r.min = (val s.mint).f x := by
    rintro env n l s x r hv ⟨w, ms, _, hh, ha⟩
    rw [(AnyCalc.is L (huse _)).lstToSol ((hv n w ms r l hh).1 x ha)]; rfl
  have sol : ∀ {env : Env cfg} {n : Nat} {l : Ledger} {s : LstState} {x : Nat} {r : Range}, env.Values L s.solValueCalculator s.mint (val s.mint) →
      CalcAnswer env n l s.solValueCalculator s.mint (.solToLst x) r → ((val s.mint).calculator L).solToLst x = .ok r := by
    rintro env n l s x r hv ⟨w, ms, _, hh, ha⟩
    exact (hv n w ms r l hh).2 x ha
  have f₁ := hf₁ s₁ (List.mem_of_getElem? hs₁)
  have f₂ := hf₂ s₂ (List.mem_of_getElem? hs₂)
  have e0 := lst f₁ a0
  have e0' := lst f₂ a0'
  have hT : total = totalOf w := by
    have := hcur _ hr₁
    have h3 : totalOf w = p.totalSolValue := by unfold totalOf; rw [hl.pool]; rfl
    rw [hsm₁] at e0
    omega
  have hT' : totalOf (runHistory L w h) ≤ total' := by
    have := hb₂ s₂ (List.mem_of_getElem? hs₂) _ hr₂
    have h3 : totalOf (runHistory L w h) = p'.totalSolValue := by unfold totalOf; rw [hl'.pool]; rfl
    omega
  have hSu : lpSupply w = mi.supply := by unfold lpSupply; rw [hl.pool]; show supplyOf w.led p.lpTokenMint = _; unfold supplyOf; rw [hmi]; rfl
  have hSu' : lpSupply (runHistory L w h) = mi'.supply := by
    unfold lpSupply; rw [hl'.pool]; show supplyOf (runHistory L w h).led p'.lpTokenMint = _; unfold supplyOf; rw [hmi']; rfl
  have hS0 : 0 < mi.supply := by omega
  have hS0' : 0 < mi'.supply := by omega
  -- the LP tokens are worth no less
  have hcross : total * mi'.supply ≤ total' * mi.supply := by
    unfold lpPrice at hprice
    rw [hSu, hSu', ← hT, div_le_div_iff₀ (by exact_mod_cast hS0) (by exact_mod_cast hS0')] at hprice
    have h4 : (total : Rat) * mi'.supply ≤ totalOf (runHistory L w h) * mi.supply := hprice
    have h5 : total * mi'.supply ≤ totalOf (runHistory L w h) * mi.supply := by exact_mod_cast h4
    exact h5.trans (Nat.mul_le_mul_right _ hT')
  have hvv : v ≤ v' := by
    by_cases ht0 : total = 0
    · rw [hval.1 (.inr ht0)]; exact Nat.zero_le _
    · have ht0' : total' ≠ 0 := by
        intro e; rw [e, Nat.zero_mul] at hcross
        have := Nat.le_zero.1 hcross
        rcases Nat.mul_eq_zero.1 this with h6 | h6 <;> omega
      rw [hval.2 (by omega) ht0, hval'.2 (by omega) ht0', hlp, Nat.le_div_iff_mul_le hS0']
      have h7 : args₂.lpTokenAmount * total / mi.supply * mi'.supply * mi.supply ≤ args₂.lpTokenAmount * total' * mi.supply := by
        calc args₂.lpTokenAmount * total / mi.supply * mi'.supply * mi.supply
            = args₂.lpTokenAmount * total / mi.supply * mi.supply * mi'.supply := by rw [Nat.mul_right_comm]
          _ ≤ args₂.lpTokenAmount * total * mi'.supply := Nat.mul_le_mul_right _ (Nat.div_mul_le_self _ _)
          _ = args₂.lpTokenAmount * (total * mi'.supply) := Nat.mul_assoc _ _ _
          _ ≤ args₂.lpTokenAmount * (total' * mi.supply) := Nat.mul_le_mul_left _ hcross
          _ = args₂.lpTokenAmount * total' * mi.supply := (Nat.mul_assoc _ _ _).symm
      exact Nat.le_of_mul_le_mul_right h7 hS0
  -- the price
  obtain ⟨wp, msp, _, _, hask⟩ := ap
  obtain ⟨wp', msp', _, _, hask'⟩ := ap'
  obtain ⟨st, hst, hu⟩ := (flat_lp_prices (hp₁ p hl.pool)).2 _ _ _ _ _ _ _ hask
  obtain ⟨st', hst', hu'⟩ := (flat_lp_prices (hp₂ p' hl'.pool)).2 _ _ _ _ _ _ _ hask'
  rw [hst] at hst'; injection hst' with hst'; subst hst'
  have huu : vAfter ≤ vAfter' := by
    rw [hu, hu']; exact cdiv_fee_mono hvv (hF.lpFee st hst)
  -- the conversion
  have c₁ := sol f₁ ac
  have c₂ := sol f₂ ac'
  rw [hsm₁] at c₁
  rw [hsm₂] at c₂
  exact ((C35_calculators L (val m) (huse m)).2 _ _ _ _ huu c₁ c₂).1
end

/-! ### A case -/

namespace Ex

/-- The accounts of a redemption for LST 21 priced by the flat-fee program. -/
def liqAf : List Acc := [sg 40, ro 21, rw 41, rw 43, rw 20, rw feeA, ro 8, ro 8, rw 1, rw 2, rw resA, ro 31, ro 7, ro 300]

/-- Two swaps of others. -/
def others : List (Tx cfg) := [tSwapIn, tSwapOut]

theorem others_run : runHistory .ex (st 5) others = st 7 := by
  show runHistory .ex (runHistory .ex w0 (hist.take 5)) others = runHistory .ex w0 (hist.take 7)
  unfold runHistory
  rw [← List.foldl_append]; rfl

theorem redeem5 : (processIx cfg .ex fenv ⟨[], 0⟩ (st 5) liqAf (.removeLiquidity ⟨1, 0, 10000, 1⟩)).toOption.map (fun w => bal w.led 41 - bal (st 5).led 41) =
    some 9975 := by decide +kernel
theorem redeem7 : (processIx cfg .ex fenv ⟨[], 0⟩ (st 7) liqAf (.removeLiquidity ⟨1, 0, 10000, 1⟩)).toOption.map (fun w => bal w.led 41 - bal (st 7).led 41) =
    some 9983 := by decide +kernel

theorem follows_fenv {w : World} (h : ∀ s ∈ w.ctl.lsts, (s.mint = 22 ∧ s.solValueCalculator = 32) ∨ (s.mint = 21 ∧ s.solValueCalculator = 31)) :
    Follows .ex fenv val w := by
  intro s hs
  rcases h s hs with ⟨e1, e2⟩ | ⟨e1, e2⟩
  · rw [e1, e2]
    intro n w' ms r l hm
    exact ⟨fun a h => (Env.pure_calc.1 h).1, fun v h => (Env.pure_calc.1 h).1⟩
  · rw [e1, e2]
    intro n w' ms r l hm
    exact ⟨fun a h => (Env.pure_calc.1 h).1, fun v h => (Env.pure_calc.1 h).1⟩

theorem redeem_entry : ∃ s, (st 5).ctl.lsts[0]? = some s ∧ s.mint = 21 ∧ ∀ k, IsReserves cfg (st 5) s k → s.solValue = (val 21).f (bal (st 5).led k) := by
  refine ⟨((st 5).ctl.lsts[0]?).get (by decide +kernel), (Option.some_get _).symm, by decide +kernel, ?_⟩
  rintro k ⟨m, hm, hk⟩
  have h1 : ((st 5).led.mints (((st 5).ctl.lsts[0]?).get (by decide +kernel)).mint).map (fun m => cfg.ata cfg.poolState m.program
      (((st 5).ctl.lsts[0]?).get (by decide +kernel)).mint (((st 5).ctl.lsts[0]?).get (by decide +kernel)).poolReservesBump) = some (some resA) := by decide +kernel
  rw [hm] at h1
  injection h1 with h1
  replace h1 := hk.symm.trans h1
  injection h1 with h1
  subst h1
  decide +kernel

theorem redeem_entry7 : (st 7).ctl.lsts[0]? = some (((st 7).ctl.lsts[0]?).get (by decide +kernel)) := (Option.some_get _).symm

-- A redemption of 10000 LP tokens pays 9975 at once and 9983 after two swaps of others; the hypotheses hold.
example : ∃ w₁ w₂ out₁ out₂, processIx cfg .ex fenv ⟨[], 0⟩ (st 5) liqAf (.removeLiquidity ⟨1, 0, 10000, 1⟩) = .ok w₁ ∧
    processIx cfg .ex fenv ⟨[], 0⟩ (st 7) liqAf (.removeLiquidity ⟨1, 0, 10000, 1⟩) = .ok w₂ ∧
    Redeems cfg (st 5) w₁ liqAf 0 10000 21 out₁ ∧ Redeems cfg (st 7) w₂ liqAf 0 10000 21 out₂ ∧ out₁ ≤ out₂ := by
  obtain ⟨w₁, e₁⟩ : ∃ w₁, processIx cfg .ex fenv ⟨[], 0⟩ (st 5) liqAf (.removeLiquidity ⟨1, 0, 10000, 1⟩) = .ok w₁ := by
    have := redeem5
    revert this
    cases processIx cfg .ex fenv ⟨[], 0⟩ (st 5) liqAf (.removeLiquidity ⟨1, 0, 10000, 1⟩) with
    | ok x => exact fun _ => ⟨x, rfl⟩
    | error e => exact fun h => by cases h
  obtain ⟨w₂, e₂⟩ : ∃ w₂, processIx cfg .ex fenv ⟨[], 0⟩ (st 7) liqAf (.removeLiquidity ⟨1, 0, 10000, 1⟩) = .ok w₂ := by
    have := redeem7
    revert this
    cases processIx cfg .ex fenv ⟨[], 0⟩ (st 7) liqAf (.removeLiquidity ⟨1, 0, 10000, 1⟩) with
    | ok x => exact fun _ => ⟨x, rfl⟩
    | error e => exact fun h => by cases h
  have key := @C79_redeem_later cfg .ex val fc (flatHistory .ex fhist) (st 5) w₁ w₂ (st_reachable 5) (backed (by decide +kernel)) others
    (Rising.const val_noFees (follows (by simp [others, hist]) (by decide +kernel))) (by decide +kernel)
    (fun m => by
      unfold val; split
      · exact ⟨by decide, by decide⟩
      · trivial)
    (C26_bounds fhist) fenv fenv Env.pure_quiet Env.pure_quiet (follows_fenv (by decide +kernel)) (by rw [others_run]; exact follows_fenv (by decide +kernel))
    (by
      intro p hp
      have : p.pricingProgram = 7 := by
        have h1 : (st 5).ctl.pool.map PoolState.pricingProgram = some 7 := by decide +kernel
        rw [hp] at h1; injection h1
      rw [this]; exact @fenv_priced)
    (by
      rw [others_run]
      intro p hp
      have : p.pricingProgram = 7 := by
        have h1 : (st 7).ctl.pool.map PoolState.pricingProgram = some 7 := by decide +kernel
        rw [hp] at h1; injection h1
      rw [this]; exact @fenv_priced)
  rw [others_run] at key
  obtain ⟨out₁, out₂, h1, h2, h3⟩ := key (args₁ := ⟨1, 0, 10000, 1⟩) (args₂ := ⟨1, 0, 10000, 1⟩) rfl (m := 21) redeem_entry ⟨_, redeem_entry7, by decide +kernel⟩ e₁ e₂
  exact ⟨w₁, w₂, out₁, out₂, e₁, e₂, h1, h2, h3⟩

end Ex
end S
