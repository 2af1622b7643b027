import Verif.Props.Rates
import Verif.Props.System
/-
C84: what a depositor gets is worth the deposit, to within one LP token.
-/
set_option autoImplicit false
namespace S

/-- What the pool values `lp` of its LP tokens at: their share of the recorded total, rounded down. -/
def lpWorth (w : World) (lp : Nat) : Nat := lp * totalOf w / lpSupply w

/-- Arithmetic of C84: `u` lamports credited at rate `S / T` leave the depositor with `lp` tokens of `S + lp` sharing `t`. -/
theorem deposit_worth {S T u lp t k : Nat} (hm : LpMinted S T u lp) (hlp : lp ≠ 0) (hT : S ≠ 0 → T ≠ 0)
    (h1 : S ≠ 0 → T * (S + lp) ≤ (t + k) * S) (h2 : S = 0 → S + lp ≤ t + k) :
    u * (S + lp) < (lp + 1) * (t + k) ∧ u * (S + lp) < (lp * t / (S + lp) + 1 + k) * (S + lp) + (t + k) := by
  have key : u * (S + lp) < (lp + 1) * (t + k) := by
    by_cases hS : S = 0
    · have e := hm.1 hS
      have h3 := h2 hS
      subst hS
      have : u * (0 + lp) ≤ lp * (t + k) := by
        rw [Nat.zero_add, Nat.mul_comm u lp]; exact Nat.mul_le_mul_left _ (by omega)
      have e1 : (lp + 1) * (t + k) = lp * (t + k) + (t + k) := by ring
      omega
    · have hT := hT hS
      have e := hm.2.2 hS hT
      have h3 := h1 hS
      have h4 : u * S < (lp + 1) * T := by
        rw [e, Nat.mul_comm _ T]; exact Nat.lt_mul_div_succ (u * S) (Nat.pos_of_ne_zero hT)
      have h5 : u * S * (S + lp) < (lp + 1) * T * (S + lp) := Nat.mul_lt_mul_of_pos_right h4 (by omega)
      have h6 : (lp + 1) * (T * (S + lp)) ≤ (lp + 1) * ((t + k) * S) := Nat.mul_le_mul_left _ h3
      have h7 : u * (S + lp) * S < (lp + 1) * (t + k) * S := by nlinarith
      exact Nat.lt_of_mul_lt_mul_right h7
  refine ⟨key, ?_⟩
  have h8 : lp * t < (lp * t / (S + lp) + 1) * (S + lp) := by
    rw [Nat.mul_comm _ (S + lp)]; exact Nat.lt_mul_div_succ (lp * t) (show 0 < S + lp by omega)
  have h9 : lp * k ≤ k * (S + lp) := by rw [Nat.mul_comm]; exact Nat.mul_le_mul_left _ (by omega)
  have e1 : (lp + 1) * (t + k) = lp * t + lp * k + (t + k) := by ring
  have e2 : (lp * t / (S + lp) + 1 + k) * (S + lp) = (lp * t / (S + lp) + 1) * (S + lp) + k * (S + lp) := by ring
  omega

section
variable {cfg : Cfg} {L : RatioLib} {env : Env cfg} {tx : TxInfo} {w w' : World} {accs : List Acc} {args : AddLiquidityArgs} {c : AnyCalc}

/-- C84: what a deposit earns the depositor, with any pricing program: `u` is what the program credits for the deposit, `lp` the tokens minted. The LP tokens and one more,
at the price of an LP token after the deposit (`(totalOf w' + k) / lpSupply w'`, with `k` the rounding slack of C09, 0 for stake pools without withdrawal fee), are worth more than
`u`; and what the pool would value these LP tokens at right away falls short of `u` by at most that price, one lamport and `k`. `T` is the pool's total after
syncing the LST; the one exception is a pool with LP tokens but without any value. -/
theorem C84_deposit (hr : Reachable cfg L w) (hs : signersOk cfg accs) (hq : env.Quiet) (hc : ValuedBy L env w args.lstIndex c) (hu : c.Usable)
    (h : processIx cfg L env tx w accs (.addLiquidity args) = .ok w') :
    ∃ p T u lp, w.ctl.pool = some p ∧ SyncedTotal cfg L w args.lstIndex c T ∧
      (∃ n v ms l, env.askPrice n v p.pricingProgram ms (.lpTokensToMint args.lstAmount (c.f args.lstAmount)) = .ok (u, l)) ∧
      lpSupply w' = lpSupply w + lp ∧
      ((lpSupply w ≠ 0 → T ≠ 0) →
        u * lpSupply w' < (lp + 1) * (totalOf w' + c.depositSlack) ∧
        u * lpSupply w' < (lpWorth w' lp + 1 + c.depositSlack) * lpSupply w' + (totalOf w' + c.depositSlack)) := by
  obtain ⟨p, s, m, res, userLst, userLp, T, t', u, lp, toRes, toFee, n⟩ := deposit_nums hr.inv hs hq hc hu h
  have hd := n.dilution (n.gain hu)
  have hm := n.minted
  refine ⟨p, T, u, lp, n.pool, n.synced, n.price, by rw [n.supply.1, n.supply.2], fun hT => ?_⟩
  unfold lpWorth
  rw [n.supply.2, n.supply.1] at hd
  rw [n.supply.1] at hT
  rw [n.supply.2]
  exact deposit_worth hm n.lp_ne hT hd.1 hd.2

theorem deposit_full (hi : Inv cfg w) (hs : signersOk cfg accs) (hq : env.Quiet) (hc : ValuedBy L env w args.lstIndex c) (hu : c.Usable)
    (hp : ∀ p, w.ctl.pool = some p → ∀ n w ms a v r l, env.askPrice n w p.pricingProgram ms (.lpTokensToMint a v) = .ok (r, l) → r = v)
    (h : processIx cfg L env tx w accs (.addLiquidity args) = .ok w') :
    ∃ T lp k, SyncedTotal cfg L w args.lstIndex c T ∧ (c.Proportional → k = 0) ∧ k ≤ 1 ∧ lpSupply w' = lpSupply w + lp ∧
      ((lpSupply w ≠ 0 → T ≠ 0) →
        c.f args.lstAmount * lpSupply w' < (lp + 1) * (totalOf w' + k) ∧
        c.f args.lstAmount * lpSupply w' < (lpWorth w' lp + 1 + k) * lpSupply w' + (totalOf w' + k)) := by
  obtain ⟨p, s, m, res, userLst, userLp, T, t', u, lp, toRes, toFee, n⟩ := deposit_nums hi hs hq hc hu h
  obtain ⟨_, _, _, _, hpr⟩ := n.price
  have hfull := hp _ n.pool _ _ _ _ _ _ _ hpr
  have main : ∀ k, c.f (bal w.led res) + u ≤ c.f (bal w'.led res) + k → (lpSupply w ≠ 0 → T ≠ 0) →
        c.f args.lstAmount * lpSupply w' < (lp + 1) * (totalOf w' + k) ∧
        c.f args.lstAmount * lpSupply w' < (lpWorth w' lp + 1 + k) * lpSupply w' + (totalOf w' + k) := by
    intro k hg hT
    have hd := n.dilution hg
    unfold lpWorth
    rw [n.supply.2, n.supply.1] at hd
    rw [n.supply.1] at hT
    rw [n.supply.2, ← hfull]
    exact deposit_worth n.minted n.lp_ne hT hd.1 hd.2
  have hS : lpSupply w' = lpSupply w + lp := by rw [n.supply.1, n.supply.2]
  by_cases hP : c.Proportional
  · exact ⟨T, lp, 0, n.synced, fun _ => rfl, by omega, hS, main 0 (n.gain_full hu hfull fun a b => by
      have := AnyCalc.f_superadd hP a b; omega)⟩
  · exact ⟨T, lp, 1, n.synced, fun x => absurd x hP, Nat.le_refl _, hS, main 1 (n.gain_full hu hfull fun a b => AnyCalc.f_almost_superadd hu a b)⟩

/-- C84 with a pricing program that credits deposits in full, as the flat-fee and the no-fee program do: the depositor's LP tokens and one more are worth more than
the LSTs deposited, at their calculator's value; no slack with a proportional calculator (all but Marinade with a withdrawal fee), at most one lamport otherwise. -/
theorem C84_full (hr : Reachable cfg L w) (hs : signersOk cfg accs) (hq : env.Quiet) (hc : ValuedBy L env w args.lstIndex c) (hu : c.Usable)
    (hp : ∀ p, w.ctl.pool = some p → ∀ n w ms a v r l, env.askPrice n w p.pricingProgram ms (.lpTokensToMint a v) = .ok (r, l) → r = v)
    (h : processIx cfg L env tx w accs (.addLiquidity args) = .ok w') :
    ∃ T lp k, SyncedTotal cfg L w args.lstIndex c T ∧ (c.Proportional → k = 0) ∧ k ≤ 1 ∧ lpSupply w' = lpSupply w + lp ∧
      ((lpSupply w ≠ 0 → T ≠ 0) →
        c.f args.lstAmount * lpSupply w' < (lp + 1) * (totalOf w' + k) ∧
        c.f args.lstAmount * lpSupply w' < (lpWorth w' lp + 1 + k) * lpSupply w' + (totalOf w' + k)) :=
  deposit_full hr.inv hs hq hc hu hp h
end

/-- C84 in the deployed system: with the flat-fee program as pricing program and stake pools' figures `val`, every deposit ever made, whatever else its transaction did. -/
theorem C84_system {sc : SysCfg} {L : RatioLib} {s₀ : Sys sc} (hf : s₀.Fresh) {h : List (SysTx sc)} {e : SysEvent sc} (he : e ∈ systemEvents L s₀ h)
    {val : Valuation} (hv : e.Reads val) {o : Outside sc} {accs : List Acc} {args : AddLiquidityArgs} (hix : e.IsIx o accs (.addLiquidity args))
    {p : PoolState} (hp : e.pre.world.ctl.pool = some p) (hpp : p.pricingProgram = sc.fc.programId) {s : LstState}
    (hs : e.pre.world.ctl.lsts[args.lstIndex]? = some s) :
    ∃ T lp k, SyncedTotal sc.cfg L e.pre.world args.lstIndex (val s.mint) T ∧ ((val s.mint).Proportional → k = 0) ∧ k ≤ 1 ∧
      lpSupply e.post.world = lpSupply e.pre.world + lp ∧
      ((lpSupply e.pre.world ≠ 0 → T ≠ 0) →
        (val s.mint).f args.lstAmount * lpSupply e.post.world < (lp + 1) * (totalOf e.post.world + k) ∧
        (val s.mint).f args.lstAmount * lpSupply e.post.world <
          (lpWorth e.post.world lp + 1 + k) * lpSupply e.post.world + (totalOf e.post.world + k)) := by
  have hi : Inv sc.cfg e.pre.world := by
    obtain ⟨hc, hr⟩ := systemEvents_chain L s₀ h
    exact ((hc.inv (P := fun s => Inv sc.cfg s.world) hr (fun h hr => h.action (SysAction.run_ctl hr)) (C65_reachable (L := L) hf []).inv).1 e he).1
  have hrun := SysEvent.ix he hix
  obtain ⟨data, ha, hd⟩ := hix
  have hsig : signersOk sc.cfg accs := by
    have hx := SysAction.run_ctl ((systemEvents_chain L s₀ h).2 e he)
    rw [ha] at hx
    obtain ⟨g, _⟩ := Call.run_ok hx
    exact g
  obtain ⟨hq, hl⟩ := hv.2 o accs data ha
  have hval := (hv.follows (L := L)).2 ⟨e.pre.env L o, accs, data⟩ (by simp only [SysEvent.ctl, ha, SysAction.ctl])
  refine deposit_full hi hsig (e.pre.quiet hq) (fun s' hs' => ?_) (hv.1 _) (fun p' hp' => ?_) hrun
  · rw [hs] at hs'; injection hs' with hs'; subst hs'
    exact hval.2 s (.inl (List.mem_of_getElem? hs))
  · rw [hp] at hp'; injection hp' with hp'; subst hp'
    rw [hpp]
    exact (flat_lp_prices (e.pre.flatPriced o)).1

/-! ### A concrete case: the deposit of 20000 of LST 22 (worth 30000 lamports) into the deployed pool -/

namespace Ex

example : ∃ e ∈ systemEvents .ex sys0 (sysHist.take 16), ∃ lp k, k ≤ 1 ∧ lpSupply e.post.world = lpSupply e.pre.world + lp ∧
    30000 * lpSupply e.post.world < (lp + 1) * (totalOf e.post.world + k) := by
  obtain ⟨e, hpre, _, hix, hev⟩ := sysEv (n := 15) (o := outside 0 5000) (accs := sysLiqB) (ix := .addLiquidity ⟨5, 1, 20000, 1⟩) rfl
    (by decide +kernel) (by decide +kernel)
  have he : e ∈ systemEvents .ex sys0 (sysHist.take 16) := by rw [hev]; simp
  obtain ⟨p, hp, hpp⟩ := sys_prog sys_lists.2.2.1
  have hB : (sysAt 15).world.ctl.lsts[1]? = some ⟨0, 255, 255, 0, 22, 32⟩ := by decide +kernel
  have hT : totalOf (sysAt 15).world = 30000 := by decide +kernel
  rw [← hpre] at hp hB
  have hr := sys_reads (s := sys0) (h := sysHist.take 16) (fun t ht => List.mem_of_mem_take ht) (by decide +kernel) e he
  obtain ⟨T, lp, k, hsync, _, hk, hS, h⟩ := C84_system (L := .ex) sys0_fresh he hr hix hp hpp hB
  have : (Ex.val 22).f 20000 = 30000 := by decide +kernel
  refine ⟨e, he, lp, k, hk, hS, ?_⟩
  rw [← this]
  refine (h fun _ => ?_).1
  obtain ⟨p', s', _, r, h1, h2, _, _, h3⟩ := hsync
  rw [hB] at h2; injection h2 with h2
  rw [← h2] at h3
  dsimp only at h3
  rw [← hpre] at hT
  unfold totalOf at hT
  rw [h1] at hT
  change p'.totalSolValue = 30000 at hT
  omega

-- In numbers: 30000 LP tokens, valued at 30000 lamports.
example : lpSupply (sysAt 15).world = 30000 ∧ lpSupply (sysAt 16).world = 60000 ∧ lpWorth (sysAt 16).world 30000 = 30000 := by decide +kernel

-- The bound is tight: where one LP token is worth 10001 lamports, a deposit of 20001 lamports earns one LP token, afterwards worth 15001.
example : LpMinted 1 10001 20001 1 ∧ 1 * (10001 + 20001) / 2 = 15001 ∧ 20001 * 2 < (1 + 1) * (10001 + 20001) := by
  refine ⟨⟨by omega, by omega, fun _ _ => by decide⟩, by decide, by decide⟩
end Ex
end S
