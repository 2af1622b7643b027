import Verif.Props.CliRebalance
import Verif.Props.Payout
/-
C81, C82: the subsidy the command-line tool asks for when rebalancing is what is missing, and no more.
-/
set_option autoImplicit false
namespace S

section
variable {J : JupCfg} {L : RatioLib} {S : SPool} {auth withdrawTo : Pubkey} {plan : RebalPlan} {payer : Option Nat} {c : AnyCalc}

/-- C81, `rebal-sol`. The LST minted by the stake pool and the subsidy together are worth the SOL taken from the reserves; if a subsidy is asked for at all,
they are not worth more once the rounding slack of the LST's stake pool is taken off. -/
theorem C81_rebalSol {e : SanctumLst} {lamports minted : Nat} {s : LstState} {d : LstData}
    (hplan : rebalSol J L S auth e lamports minted payer withdrawTo = .ok plan)
    (hd : S.findReady e.mint = .ok (s, d)) (hc : d.solCalc.usable S.epoch = .ok c) (hu : c.Usable) :
    lamports ≤ c.payout (minted + plan.subsidy) ∧
    (plan.subsidy ≠ 0 → c.payout (minted + plan.subsidy - c.slack) ≤ lamports) := by
  simp only [rebalSol, bind_ok, Prod.exists, pure_ok] at hplan
  obtain ⟨_, -, s1, d1, hfr, req, hreq, _, -, dm, hdm, st, fin, hix, rfl⟩ := hplan
  rw [hd] at hfr; cases hfr
  obtain ⟨c', hc', hreq'⟩ := KnownCalc.solToLst_ok hreq
  rw [hc] at hc'; cases hc'
  have ha := AnyCalc.answers_of (.inr hreq')
  have k := (AnyCalc.is L hu).solToLst hreq'
  have hm : req.max = c.rmax lamports := by rw [k]
  dsimp only
  constructor
  · have h1 := (c.conv hu ha).up lamports
    have h2 := (c.conv hu ha).fmono (a := c.rmax lamports) (b := minted + (req.max - minted)) (by omega)
    rw [← c.f_payout hu ha]; omega
  · intro h
    have : minted + (req.max - minted) = req.max := by omega
    rw [this]
    exact (C71_tight L hu hreq').2

/-- C81, `rebal-stake`. What the destination's reserves are worth at the end, with the stake pools' quote and the subsidy, is at least what the controller
asks for (the destination's value plus what the source loses); if a subsidy is asked for at all, it is not more once the rounding slack is taken off. -/
theorem C81_rebalStake {a b : SanctumLst} {amt tokensOut n m : Nat} {s s' : LstState} {d d' : LstData} {c' : AnyCalc}
    (hplan : rebalStake J L S auth a b amt tokensOut payer withdrawTo = .ok plan)
    (hd : S.findReady a.mint = .ok (s, d)) (hc : d.solCalc.usable S.epoch = .ok c) (hu : c.Usable) (hn : d.reserves = some n)
    (hd' : S.findReady b.mint = .ok (s', d')) (hc' : d'.solCalc.usable S.epoch = .ok c') (hu' : c'.Usable) (hm : d'.reserves = some m)
    (hfit : c'.payout m + (c.payout n - c.payout (n - amt)) < U64) :
    c'.payout m + (c.payout n - c.payout (n - amt)) ≤ c'.payout (m + tokensOut + plan.subsidy) ∧
    (plan.subsidy ≠ 0 →
      c'.payout (m + tokensOut + plan.subsidy - c'.slack) ≤ c'.payout m + (c.payout n - c.payout (n - amt))) := by
  simp only [rebalStake, rebalStakeSubsidy, bind_ok, Prod.exists, pure_ok] at hplan
  obtain ⟨_, -, sub, ⟨p, hp, s1, d1, hs, s1', d1', hs', T, fv, fb, hsy, T', tv, tb, hsy', left, hleft, e, he, ending, hend, hsub⟩, _, -, sm, hsm, dm, hdm,
    st, fin, hix, rfl⟩ := hplan
  rw [hd] at hs; cases hs
  rw [hd'] at hs'; cases hs'
  obtain ⟨v, hn1, hv, rfl, hle1, rfl, hf1⟩ := applySyncFull_ok hsy
  obtain ⟨u, hn2, hu2, rfl, hle2, rfl, hf2⟩ := applySyncFull_ok hsy'
  rw [hn] at hn1; cases hn1
  rw [hm] at hn2; cases hn2
  obtain ⟨k, hk, hv'⟩ := KnownCalc.lstToSol_ok hv
  rw [hc] at hk; cases hk
  obtain ⟨k, hk, hleft'⟩ := KnownCalc.lstToSol_ok hleft
  rw [hc] at hk; cases hk
  obtain ⟨k, hk, hu2'⟩ := KnownCalc.lstToSol_ok hu2
  rw [hc'] at hk; cases hk
  obtain ⟨k, hk, he'⟩ := KnownCalc.solToLst_ok he
  rw [hc'] at hk; cases hk
  have hx := (raiseUntil_ok hend).2
  obtain ⟨hge, rr, hrr, -⟩ := raiseUntil_ok hend
  have ev : v.min = c.payout n := by rw [((C71_value L hu).1 hv').1]
  have el : left.min = c.payout (n - amt) := by rw [((C71_value L hu).1 hleft').1]
  have eu : u.min = c'.payout m := by rw [((C71_value L hu').1 hu2').1]
  have er : min (U64 - 1) (u.min + (v.min - left.min)) = c'.payout m + (c.payout n - c.payout (n - amt)) := by
    rw [ev, el, eu]; omega
  rw [er] at he he' hend hx
  generalize hy : c'.payout m + (c.payout n - c.payout (n - amt)) = y at *
  have ha := AnyCalc.answers_of (.inr he')
  have hup := (c'.conv hu' ha).up y
  have hmax : e.max = c'.rmax y := by rw [(AnyCalc.is L hu').solToLst he']
  -- the search stops at once
  have hend' : ending = e.max := by
    have hfirst : ∃ r, d'.solCalc.lstToSol L S.epoch e.max = .ok r := by
      cases hf : U64 - e.max with
      | zero => rw [hf] at hend; cases hend
      | succ f =>
        rw [hf] at hend
        simp only [raiseUntil, bind_ok] at hend
        obtain ⟨r, hr, -⟩ := hend
        exact ⟨r, hr⟩
    obtain ⟨r, hr⟩ := hfirst
    cases hf : U64 - e.max with
    | zero => rw [hf] at hend; cases hend
    | succ f =>
      rw [hf, C56_stake_search hc' hu' he hr] at hend
      injection hend with hend; exact hend.symm
  have hmono := @IsConv.fmono _ _ _ (c'.conv hu' ha)
  dsimp only
  constructor
  · have h2 := hmono (a := c'.rmax y) (b := m + tokensOut + sub) (by omega)
    rw [← c'.f_payout hu' ha]; omega
  · intro h
    have : m + tokensOut + sub = e.max := by omega
    rw [this]
    exact (C71_tight L hu' he').2

/-- C81, `rebal-withdraw-sol`. If a subsidy is asked for, it makes up exactly what the reserves lose in value. -/
theorem C81_rebalWithdrawSol {e : SanctumLst} {amt withdrawn n : Nat} {s : LstState} {d : LstData}
    (hplan : rebalWithdrawSol J L S auth e amt withdrawn payer withdrawTo = .ok plan)
    (hd : S.findReady e.mint = .ok (s, d)) (hc : d.solCalc.usable S.epoch = .ok c) (hu : c.Usable) (hn : d.reserves = some n) :
    amt ≤ n ∧ c.payout n - c.payout (n - amt) ≤ withdrawn + plan.subsidy ∧
    (plan.subsidy ≠ 0 → withdrawn + plan.subsidy = c.payout n - c.payout (n - amt)) := by
  simp only [rebalWithdrawSol, bind_ok, Prod.exists, pure_ok, okOr_ok, subU64_ok] at hplan
  obtain ⟨_, -, s1, d1, hfr, ini, hini, bef, hbef, _, ⟨rfl, hle⟩, aft, haft, _, ⟨rfl, hle'⟩, _, -, sm, hsm, st, fin, hix, rfl⟩ := hplan
  rw [hd] at hfr; cases hfr
  rw [hn] at hini; cases hini
  obtain ⟨k, hk, hb⟩ := KnownCalc.lstToSol_ok hbef
  rw [hc] at hk; cases hk
  obtain ⟨k, hk, hf⟩ := KnownCalc.lstToSol_ok haft
  rw [hc] at hk; cases hk
  have e1 : bef.min = c.payout n := by rw [((C71_value L hu).1 hb).1]
  have e2 : aft.min = c.payout (n - amt) := by rw [((C71_value L hu).1 hf).1]
  rw [e1, e2]
  dsimp only
  refine ⟨hle, by omega, by omega⟩

/-! ### C82 -/

/-- The fee on withdrawing SOL is no higher than the fee on withdrawing stake, which the calculator takes off. -/
def SolPool.NoDearer (q : SolPool) : Prop :=
  q.solFeeNum = 0 ∨ q.solFeeDenom = 0 ∨ (q.pool.feeNum ≠ 0 ∧ q.solFeeNum * q.pool.feeDenom ≤ q.pool.feeNum * q.solFeeDenom)

theorem ceilFee_le_of_noDearer {q : SolPool} (h : q.NoDearer) (hu : q.pool.feeNum = 0 ∨ q.pool.feeNum < q.pool.feeDenom) (x : Nat) :
    ceilFee q.solFeeNum q.solFeeDenom x ≤ ceilFee q.pool.feeNum q.pool.feeDenom x := by
  unfold ceilFee
  split
  · exact Nat.zero_le _
  · rename_i h0
    have hs : 0 < q.solFeeDenom := by omega
    rcases h with h | h | ⟨hn, h⟩
    · omega
    · omega
    · have hd : 0 < q.pool.feeDenom := by omega
      rw [if_neg (by omega), cdiv_le_iff hs]
      have h1 := le_cdiv_mul (x * q.pool.feeNum) hd
      generalize cdiv (x * q.pool.feeNum) q.pool.feeDenom = k at *
      have h2 : q.pool.feeDenom * (x * q.solFeeNum) ≤ q.pool.feeDenom * (k * q.solFeeDenom) := by
        nlinarith [Nat.mul_le_mul_left x h, Nat.mul_le_mul_left q.solFeeDenom h1]
      exact Nat.le_of_mul_le_mul_left h2 hd

theorem splFee_add_le {n d a b : Nat} (h : n = 0 ∨ n < d) : splFee n d (a + b) ≤ splFee n d a + splFee n d b + (if n = 0 then 0 else 1) := by
  unfold splFee
  split
  · omega
  · exact floor_add_le (by omega)

/-- C82. Rebalancing an LST into SOL through its stake pool needs no subsidy beyond rounding, unless the pool's fee on withdrawing SOL is higher than its fee on
withdrawing stake: at most what one base unit of the LST is worth and two lamports, and at most one lamport if the pool has no fee. -/
theorem C82_dust {e : SanctumLst} {q : SolPool} {amt : Nat} {s : LstState} {d : LstData}
    (hplan : rebalWithdrawSolCmd J L S auth e q amt payer withdrawTo = .ok plan)
    (hd : S.findReady e.mint = .ok (s, d)) (hc : d.solCalc.usable S.epoch = .ok (.spl q.pool)) (hu : AnyCalc.Usable (.spl q.pool))
    (hfee : q.NoDearer) :
    plan.subsidy ≤ q.pool.totalLamports / q.pool.poolTokenSupply + 2 ∧ (q.pool.feeNum = 0 → plan.subsidy ≤ 1) := by
  simp only [rebalWithdrawSolCmd, SolPool.quoteWithdrawSol, bind_ok, subU64_ok, toU64_ok, require_ok, exists_const, pure_ok] at hplan
  obtain ⟨got, ⟨_, ⟨rfl, -⟩, _, ⟨rfl, -⟩, _, ⟨rfl, hle⟩, got', hshare, -, rfl⟩, hplan⟩ := hplan
  obtain ⟨ht, hs, hf⟩ := hu
  have hs0 : 0 < q.pool.poolTokenSupply := by omega
  have hgot : got' = (amt - ceilFee q.solFeeNum q.solFeeDenom amt) * q.pool.totalLamports / q.pool.poolTokenSupply := by
    unfold SolPool.share at hshare
    split at hshare
    · rename_i h
      simp only [pure_ok] at hshare
      rw [Nat.div_eq_of_lt (by omega)]; exact hshare.symm
    · exact (toU64_ok.1 hshare).1
  have hn : ∃ n, d.reserves = some n := by
    simp only [rebalWithdrawSol, bind_ok, Prod.exists, okOr_ok] at hplan
    obtain ⟨_, -, s1, d1, hfr, ini, hini, -⟩ := hplan
    rw [hd] at hfr; cases hfr
    exact ⟨ini, hini⟩
  obtain ⟨n, hn⟩ := hn
  obtain ⟨hamt, -, hx⟩ := C81_rebalWithdrawSol hplan hd hc ⟨ht, hs, hf⟩ hn
  by_cases h0 : plan.subsidy = 0
  · rw [h0]; exact ⟨Nat.zero_le _, fun _ => Nat.zero_le _⟩
  have hx := hx h0
  simp only [AnyCalc.payout, SplCalc.payout, ← splFee_payout hf] at hx
  have h1 := splFee_add_le (a := n - amt) (b := amt) hf
  rw [Nat.sub_add_cancel hamt] at h1
  have h2 : splFee q.pool.feeNum q.pool.feeDenom amt ≤ amt - ceilFee q.solFeeNum q.solFeeDenom amt := by
    rw [← (ceilFee_eq hf).1]
    have := ceilFee_le_of_noDearer hfee hf amt
    omega
  generalize amt - ceilFee q.solFeeNum q.solFeeDenom amt = b at *
  generalize splFee q.pool.feeNum q.pool.feeDenom amt = g at *
  generalize splFee q.pool.feeNum q.pool.feeDenom n = x at *
  generalize splFee q.pool.feeNum q.pool.feeDenom (n - amt) = y at *
  have mono : ∀ {i j : Nat}, i ≤ j → i * q.pool.totalLamports / q.pool.poolTokenSupply ≤ j * q.pool.totalLamports / q.pool.poolTokenSupply :=
    fun h => Nat.div_le_div_right (Nat.mul_le_mul_right _ h)
  constructor
  · have k1 : x ≤ y + (b + 1) := by split at h1 <;> omega
    have k2 := mono k1
    have k3 := floor_add_le (n := q.pool.totalLamports) (a := y) (b := b + 1) hs0
    have k4 := floor_add_le (n := q.pool.totalLamports) (a := b) (b := 1) hs0
    rw [Nat.one_mul] at k4
    omega
  · intro hz
    rw [if_pos hz] at h1
    have k2 := mono (show x ≤ y + b by omega)
    have k3 := floor_add_le (n := q.pool.totalLamports) (a := y) (b := b) hs0
    omega

/-- C82. What the command counts on receiving is what the stake pool has: the quote is covered by the reserve beyond the rent of the reserve account. -/
theorem C82_reserve {q : SolPool} {amt got : Nat} (h : q.quoteWithdrawSol amt = .ok got) : got + STAKE_RENT ≤ q.reserveLamports := by
  simp only [SolPool.quoteWithdrawSol, bind_ok, subU64_ok, toU64_ok, require_ok, exists_const, pure_ok] at h
  obtain ⟨_, ⟨rfl, h1⟩, _, ⟨rfl, -⟩, _, ⟨rfl, hle⟩, got', hshare, h2, rfl⟩ := h
  omega
end

/-! ### Concrete cases -/

namespace Ex

theorem cache_22 : ∃ s, (cache (st 7)).findReady 22 = .ok (s, ⟨.lido (some ⟨0, 2, 3⟩), some 16016, 8⟩) := by
  have h : ((cache (st 7)).findReady 22).toOption.map (·.2) = some ⟨.lido (some ⟨0, 2, 3⟩), some 16016, 8⟩ := by decide +kernel
  cases hx : (cache (st 7)).findReady 22 with
  | error e => rw [hx] at h; cases h
  | ok x =>
    obtain ⟨s, d⟩ := x
    rw [hx] at h
    simp only [Except.toOption, Option.map_some, Option.some.injEq] at h
    exact ⟨s, by rw [h]⟩

theorem cache_21 : ∃ s, (cache (st 7)).findReady 21 = .ok (s, ⟨.wsol, some 36031, 8⟩) := by
  have h : ((cache (st 7)).findReady 21).toOption.map (·.2) = some ⟨.wsol, some 36031, 8⟩ := by decide +kernel
  cases hx : (cache (st 7)).findReady 21 with
  | error e => rw [hx] at h; cases h
  | ok x =>
    obtain ⟨s, d⟩ := x
    rw [hx] at h
    simp only [Except.toOption, Option.map_some, Option.some.injEq] at h
    exact ⟨s, by rw [h]⟩

/-- The figures of the second LST: two are worth three lamports. -/
def lido2 : AnyCalc := .lido ⟨0, 2, 3⟩
theorem lido2_usable : lido2.Usable := ⟨by decide, by decide⟩
theorem lido2_slack : lido2.slack = 1 := rfl
theorem lido2_cache : (KnownCalc.lido (some ⟨0, 2, 3⟩)).usable (cache (st 7)).epoch = .ok lido2 := by rw [cache_epoch]; rfl

/-- 3000 lamports into an LST of which two are worth three: 1990 minted and a subsidy of 11 are worth 3001, and one less is worth exactly 3000. -/
example : 3000 ≤ lido2.payout (1990 + planSol.subsidy) ∧ (planSol.subsidy ≠ 0 → lido2.payout (1990 + planSol.subsidy - lido2.slack) ≤ 3000) := by
  obtain ⟨s, hs⟩ := cache_22
  exact C81_rebalSol planSol_ok hs lido2_cache lido2_usable

example : lido2.payout 2001 = 3001 ∧ lido2.payout 2000 = 3000 := by decide

/-- `rebal-stake` with the same figures. -/
example : lido2.payout 16016 + (AnyCalc.wsol.payout 36031 - AnyCalc.wsol.payout (36031 - 3000)) ≤ lido2.payout (16016 + 1990 + planStake.subsidy) ∧
    (planStake.subsidy ≠ 0 → lido2.payout (16016 + 1990 + planStake.subsidy - lido2.slack) ≤
      lido2.payout 16016 + (AnyCalc.wsol.payout 36031 - AnyCalc.wsol.payout (36031 - 3000))) := by
  obtain ⟨s, hs⟩ := cache_21
  obtain ⟨s', hs'⟩ := cache_22
  exact C81_rebalStake planStake_ok hs rfl trivial rfl hs' lido2_cache lido2_usable rfl (by decide)

/-- `rebal-withdraw-sol`: 2000 of the LST leave, worth 3000; 2950 come back from the stake pool, 50 are the subsidy. -/
example : 2950 + planWithdraw.subsidy = lido2.payout 16016 - lido2.payout (16016 - 2000) := by
  obtain ⟨s, hs⟩ := cache_22
  have h := C81_rebalWithdrawSol planWithdraw_ok hs lido2_cache lido2_usable rfl
  exact h.2.2 (by rw [subsidies.2.2]; decide)

/-- The example's cache with an SPL stake pool behind the second LST: 3 lamports for 2 tokens and a fee of 0.1% on both kinds of withdrawal. -/
def solPool : SolPool := ⟨⟨0, 3000001, 2000000, 1, 1000⟩, 1, 1000, 5000000⟩
def splCache : SPool := { cache (st 7) with data := [some ⟨.wsol, some 36031, 8⟩, some ⟨.spl .spl 22 750 (some solPool.pool), some 16016, 8⟩] }
def planDust : R RebalPlan := rebalWithdrawSolCmd jup .ex splCache 6 ⟨22, 8, .spl .spl 750⟩ solPool 2001 (some 100) 42

/-- 2001 tokens: the fee is 3, the rest pays 2997; the reserves lose 3000. -/
theorem planDust_subsidy : planDust.toOption.map (·.subsidy) = some 1 ∧ (solPool.quoteWithdrawSol 2001).toOption = some 2997 := by decide +kernel

theorem splCache_22 : ∃ s, splCache.findReady 22 = .ok (s, ⟨.spl .spl 22 750 (some solPool.pool), some 16016, 8⟩) := by
  have h : (splCache.findReady 22).toOption.map (·.2) = some ⟨.spl .spl 22 750 (some solPool.pool), some 16016, 8⟩ := by decide +kernel
  cases hx : splCache.findReady 22 with
  | error e => rw [hx] at h; cases h
  | ok x =>
    obtain ⟨s, d⟩ := x
    rw [hx] at h
    simp only [Except.toOption, Option.map_some, Option.some.injEq] at h
    exact ⟨s, by rw [h]⟩

example : ∃ plan, planDust = .ok plan ∧ plan.subsidy ≤ 3 := by
  have h := planDust_subsidy.1
  cases hx : planDust with
  | error e => rw [hx] at h; cases h
  | ok plan =>
    obtain ⟨s, hs⟩ := splCache_22
    have he : splCache.epoch = 0 := by decide +kernel
    have hc : (KnownCalc.spl .spl 22 750 (some solPool.pool)).usable splCache.epoch = .ok (.spl solPool.pool) := by rw [he]; rfl
    have h3 : solPool.pool.totalLamports / solPool.pool.poolTokenSupply + 2 = 3 := by decide
    have hu : AnyCalc.Usable (.spl solPool.pool) := ⟨by decide, by decide, by decide⟩
    have hf : solPool.NoDearer := .inr (.inr ⟨by decide, by decide⟩)
    exact ⟨plan, rfl, h3 ▸ (C82_dust hx hs hc hu hf).1⟩
end Ex
end S
