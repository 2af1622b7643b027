import Verif.Props.DepositWorth
import Verif.Props.JupLive
/-
C100: deposits when somebody has driven up the price of an LP token (a deposit of a few lamports followed by a gift to the reserves, the "share inflation" of
vaults): the minimum the depositor demands bounds the loss, whatever happened before, and nobody else gains more than the price of one LP token.
-/
set_option autoImplicit false
namespace S

/-- With `lp ≥ m` LP tokens received, a loss of less than one LP token is a loss of less than the part `1 / (m + 1)` of the deposit. -/
theorem share_of_loss {u S' lp t m : Nat} (h : u * S' < (lp + 1) * t) (hl : lp ≠ 0) (hm : m ≤ lp) : u * m * S' < (m + 1) * (lp * t) := by
  have ht : 0 < t := by
    rcases Nat.eq_zero_or_pos t with e | e
    · subst e; omega
    · exact e
  have hl : 0 < lp := Nat.pos_of_ne_zero hl
  by_cases h0 : m = 0
  · subst h0
    have : 0 < lp * t := Nat.mul_pos hl ht
    simpa using this
  · have h1 : u * S' * m < (lp + 1) * t * m := Nat.mul_lt_mul_of_pos_right h (Nat.pos_of_ne_zero h0)
    have h2 : (lp + 1) * m ≤ (m + 1) * lp := by nlinarith
    have h3 : (lp + 1) * m * t ≤ (m + 1) * lp * t := Nat.mul_le_mul_right _ h2
    nlinarith

/-- What `S` of `S + lp` tokens gain when `u` lamports (and at most `k` more) join `T` for `lp` tokens. -/
theorem others_gain {S T u lp t k : Nat} (hm : LpMinted S T u lp) (hS : S ≠ 0) (hT : T ≠ 0) (ht : t ≤ T + u + k) :
    S * t < T * (S + lp + 1) + S * k := by
  have e := hm.2.2 hS hT
  have h4 : u * S < (lp + 1) * T := by
    rw [e, Nat.mul_comm _ T]; exact Nat.lt_mul_div_succ (u * S) (Nat.pos_of_ne_zero hT)
  have h5 : S * t ≤ S * (T + u + k) := Nat.mul_le_mul_left _ ht
  nlinarith

section
variable {cfg : Cfg} {L : RatioLib} {env : Env cfg} {tx : TxInfo} {w w' : World} {accs : List Acc} {args : AddLiquidityArgs} {c : AnyCalc}

/-- C100, any pricing program: `u` is what the program credits for the deposit, `T` the pool's total after syncing the LST, `lp` the LP tokens the depositor's
account gets, `m` the minimum demanded. The depositor pays at most `u / m` lamports per LP token; and the LP tokens received are worth (at the price
`(totalOf w' + k) / lpSupply w'` after the deposit, `k` the rounding slack of C09) more than `m / (m + 1)` of `u`. -/
theorem C100_deposit (hr : Reachable cfg L w) (hs : signersOk cfg accs) (hq : env.Quiet) (hc : ValuedBy L env w args.lstIndex c) (hu : c.Usable)
    (h : processIx cfg L env tx w accs (.addLiquidity args) = .ok w') :
    ∃ p T u lp userLp, w.ctl.pool = some p ∧ SyncedTotal cfg L w args.lstIndex c T ∧
      (∃ n v ms l, env.askPrice n v p.pricingProgram ms (.lpTokensToMint args.lstAmount (c.f args.lstAmount)) = .ok (u, l)) ∧
      (accs[3]?).map Acc.key = some userLp ∧
      ((∀ s, w.ctl.lsts[args.lstIndex]? = some s → p.lpTokenMint ≠ s.mint) → bal w'.led userLp = bal w.led userLp + lp) ∧
      lpSupply w' = lpSupply w + lp ∧ args.minLpOut ≤ lp ∧
      (lpSupply w ≠ 0 → args.minLpOut * T ≤ u * lpSupply w) ∧
      ((lpSupply w ≠ 0 → T ≠ 0) → u * args.minLpOut * lpSupply w' < (args.minLpOut + 1) * (lp * (totalOf w' + c.depositSlack))) := by
  obtain ⟨p, s, m, res, userLst, userLp, T, t', u, lp, toRes, toFee, n⟩ := deposit_nums hr.inv hs hq hc hu h
  refine ⟨p, T, u, lp, userLp, n.pool, n.synced, n.price, n.lpUser, fun hne => n.lpBal (hne s n.entry), by rw [n.supply.1, n.supply.2], n.lp_min,
    fun hS => ?_, fun hT => ?_⟩
  · rw [n.supply.1] at hS ⊢
    exact (Nat.mul_le_mul_right T n.lp_min).trans (n.rate hS)
  · have hd := n.dilution (n.gain hu)
    have hm := n.minted
    rw [n.supply.2, n.supply.1] at hd
    rw [n.supply.1] at hT
    rw [n.supply.2]
    exact share_of_loss (deposit_worth hm n.lp_ne hT hd.1 hd.2).1 n.lp_ne n.lp_min

theorem guarded_full (hi : Inv cfg w) (hs : signersOk cfg accs) (hq : env.Quiet) (hc : ValuedBy L env w args.lstIndex c) (hu : c.Usable)
    (hp : ∀ p, w.ctl.pool = some p → ∀ n w ms a v r l, env.askPrice n w p.pricingProgram ms (.lpTokensToMint a v) = .ok (r, l) → r = v)
    (hne : ∀ p s, w.ctl.pool = some p → w.ctl.lsts[args.lstIndex]? = some s → p.lpTokenMint ≠ s.mint)
    (h : processIx cfg L env tx w accs (.addLiquidity args) = .ok w') :
    ∃ T lp k userLp, SyncedTotal cfg L w args.lstIndex c T ∧ (c.Proportional → k = 0) ∧ k ≤ 1 ∧ (accs[3]?).map Acc.key = some userLp ∧
      bal w'.led userLp = bal w.led userLp + lp ∧ lpSupply w' = lpSupply w + lp ∧ args.minLpOut ≤ lp ∧
      (lpSupply w ≠ 0 → args.minLpOut * T ≤ c.f args.lstAmount * lpSupply w) ∧
      ((lpSupply w ≠ 0 → T ≠ 0) →
        c.f args.lstAmount * args.minLpOut * lpSupply w' < (args.minLpOut + 1) * (lp * (totalOf w' + k))) ∧
      (lpSupply w ≠ 0 → T ≠ 0 → lpSupply w * totalOf w' < T * (lpSupply w' + 1) + lpSupply w * c.sumSlack) := by
  obtain ⟨p, s, m, res, userLst, userLp, T, t', u, lp, toRes, toFee, n⟩ := deposit_nums hi hs hq hc hu h
  obtain ⟨_, _, _, _, hpr⟩ := n.price
  have hfull := hp _ n.pool _ _ _ _ _ _ _ hpr
  have hmint := hne p s n.pool n.entry
  have hS : lpSupply w' = lpSupply w + lp := by rw [n.supply.1, n.supply.2]
  have main : ∀ k, c.f (bal w.led res) + u ≤ c.f (bal w'.led res) + k → (lpSupply w ≠ 0 → T ≠ 0) →
        c.f args.lstAmount * args.minLpOut * lpSupply w' < (args.minLpOut + 1) * (lp * (totalOf w' + k)) := by
    intro k hg hT
    have hd := n.dilution hg
    rw [n.supply.2, n.supply.1] at hd
    rw [n.supply.1] at hT
    rw [n.supply.2, ← hfull]
    exact share_of_loss (deposit_worth n.minted n.lp_ne hT hd.1 hd.2).1 n.lp_ne n.lp_min
  have price : lpSupply w ≠ 0 → args.minLpOut * T ≤ c.f args.lstAmount * lpSupply w := by
    intro h0
    rw [n.supply.1] at h0 ⊢
    rw [← hfull]
    exact (Nat.mul_le_mul_right T n.lp_min).trans (n.rate h0)
  have others : lpSupply w ≠ 0 → T ≠ 0 → lpSupply w * totalOf w' < T * (lpSupply w' + 1) + lpSupply w * c.sumSlack := by
    intro h0 hT
    rw [n.totalOf, n.supply.2]
    rw [n.supply.1] at h0 ⊢
    refine others_gain n.minted h0 hT ?_
    have hkey : userLp ≠ res := by
      intro e
      obtain ⟨a, ha, hm⟩ := n.lp_acc
      obtain ⟨ra, hra, _, hrm⟩ := lstAccounts_unique hi n.entry n.isRes
      rw [e, hra] at ha; injection ha with ha; subst ha
      exact hmint (hm.symm.trans hrm)
    have hb := n.resBal
    rw [only_ne _ (Ne.symm hkey), Nat.add_zero] at hb
    have hmono : c.f toRes ≤ c.f args.lstAmount := (c.conv hu n.answers).fmono (by have := n.sum; omega)
    have hadd := AnyCalc.f_add_le hu (bal w.led res) toRes
    have h1 := n.total
    have h2 := n.after
    rw [hb] at h2
    omega
  by_cases hP : c.Proportional
  · exact ⟨T, lp, 0, userLp, n.synced, fun _ => rfl, by omega, n.lpUser, n.lpBal hmint, hS, n.lp_min, price, main 0 (n.gain_full hu hfull fun a b => by
      have := AnyCalc.f_superadd hP a b; omega), others⟩
  · exact ⟨T, lp, 1, userLp, n.synced, fun x => absurd x hP, Nat.le_refl _, n.lpUser, n.lpBal hmint, hS, n.lp_min, price,
      main 1 (n.gain_full hu hfull fun a b => AnyCalc.f_almost_superadd hu a b), others⟩

/-- C100 with a pricing program that credits deposits in full, as the flat-fee and the no-fee program do. `v` lamports of LSTs, a minimum of `m` LP tokens, a pool
worth `T`: the price paid per LP token is at most `v / m`; the LP tokens received are worth more than `m / (m + 1)` of `v`, to within `k ≤ 1` lamport of the total; and all
the other LP tokens together are worth less than one LP token's price more than before (plus the calculator's rounding). -/
theorem C100_full (hr : Reachable cfg L w) (hs : signersOk cfg accs) (hq : env.Quiet) (hc : ValuedBy L env w args.lstIndex c) (hu : c.Usable)
    (hp : ∀ p, w.ctl.pool = some p → ∀ n w ms a v r l, env.askPrice n w p.pricingProgram ms (.lpTokensToMint a v) = .ok (r, l) → r = v)
    (hne : ∀ p s, w.ctl.pool = some p → w.ctl.lsts[args.lstIndex]? = some s → p.lpTokenMint ≠ s.mint)
    (h : processIx cfg L env tx w accs (.addLiquidity args) = .ok w') :
    ∃ T lp k userLp, SyncedTotal cfg L w args.lstIndex c T ∧ (c.Proportional → k = 0) ∧ k ≤ 1 ∧ (accs[3]?).map Acc.key = some userLp ∧
      bal w'.led userLp = bal w.led userLp + lp ∧ lpSupply w' = lpSupply w + lp ∧ args.minLpOut ≤ lp ∧
      (lpSupply w ≠ 0 → args.minLpOut * T ≤ c.f args.lstAmount * lpSupply w) ∧
      ((lpSupply w ≠ 0 → T ≠ 0) →
        c.f args.lstAmount * args.minLpOut * lpSupply w' < (args.minLpOut + 1) * (lp * (totalOf w' + k))) ∧
      (lpSupply w ≠ 0 → T ≠ 0 → lpSupply w * totalOf w' < T * (lpSupply w' + 1) + lpSupply w * c.sumSlack) :=
  guarded_full hr.inv hs hq hc hu hp hne h
end

/-- C100 in the deployed system, for every deposit ever made: with the flat-fee program as pricing program and stake pools' figures `val`. -/
theorem C100_system {sc : SysCfg} {L : RatioLib} {s₀ : Sys sc} (hf : s₀.Fresh) {h : List (SysTx sc)} {e : SysEvent sc} (he : e ∈ systemEvents L s₀ h)
    {val : Valuation} (hv : e.Reads val) {o : Outside sc} {accs : List Acc} {args : AddLiquidityArgs} (hix : e.IsIx o accs (.addLiquidity args))
    {p : PoolState} (hp : e.pre.world.ctl.pool = some p) (hpp : p.pricingProgram = sc.fc.programId) {s : LstState}
    (hs : e.pre.world.ctl.lsts[args.lstIndex]? = some s) (hne : p.lpTokenMint ≠ s.mint) :
    ∃ T lp k userLp, SyncedTotal sc.cfg L e.pre.world args.lstIndex (val s.mint) T ∧ ((val s.mint).Proportional → k = 0) ∧ k ≤ 1 ∧
      (accs[3]?).map Acc.key = some userLp ∧ bal e.post.world.led userLp = bal e.pre.world.led userLp + lp ∧
      lpSupply e.post.world = lpSupply e.pre.world + lp ∧ args.minLpOut ≤ lp ∧
      (lpSupply e.pre.world ≠ 0 → args.minLpOut * T ≤ (val s.mint).f args.lstAmount * lpSupply e.pre.world) ∧
      ((lpSupply e.pre.world ≠ 0 → T ≠ 0) →
        (val s.mint).f args.lstAmount * args.minLpOut * lpSupply e.post.world < (args.minLpOut + 1) * (lp * (totalOf e.post.world + k))) ∧
      (lpSupply e.pre.world ≠ 0 → T ≠ 0 →
        lpSupply e.pre.world * totalOf e.post.world < T * (lpSupply e.post.world + 1) + lpSupply e.pre.world * (val s.mint).sumSlack) := by
  have hi : Inv sc.cfg e.pre.world := by
    obtain ⟨hc, hr⟩ := systemEvents_chain L s₀ h
    exact ((hc.inv (P := fun s => Inv sc.cfg s.world) hr (fun h hr => h.action (SysAction.run_ctl hr)) (C65_reachable (L := L) hf []).inv).1 e he).1
  have hrun := SysEvent.ix he hix
  obtain ⟨data, ha, hd⟩ := hix
  have hsig : signersOk sc.cfg accs := by
    have hx := SysAction.run_ctl ((systemEvents_chain L s₀ h).2 e he)
    rw [ha] at hx
    obtain ⟨g, _⟩ := Call.run_ok hx
    exact g
  obtain ⟨hq, hl⟩ := hv.2 o accs data ha
  have hval := (hv.follows (L := L)).2 ⟨e.pre.env L o, accs, data⟩ (by simp only [SysEvent.ctl, ha, SysAction.ctl])
  refine guarded_full hi hsig (e.pre.quiet hq) (fun s' hs' => ?_) (hv.1 _) (fun p' hp' => ?_) (fun p' s' hp' hs' => ?_) hrun
  · rw [hs] at hs'; injection hs' with hs'; subst hs'
    exact hval.2 s (.inl (List.mem_of_getElem? hs))
  · rw [hp] at hp'; injection hp' with hp'; subst hp'
    rw [hpp]
    exact (flat_lp_prices (e.pre.flatPriced o)).1
  · rw [hp] at hp'; injection hp' with hp'; subst hp'
    rw [hs] at hs'; injection hs' with hs'; subst hs'
    exact hne

/-! ### A concrete case: share inflation -/

namespace Ex

/-- The first depositor pays in one lamport's worth of LST 21 and gives the pool 10000 more. -/
def tDust : Tx cfg := [call liqA (.addLiquidity ⟨1, 0, 1, 1⟩)]
def tGift : Tx cfg := [.foreign ⟨77, [], []⟩ (by decide) [.ext (moveTokens 41 resA 10000) (moveTokens_ok _ _ _)]]
def inflated : World := runHistory .ex w0 [tInit, tAddA, tAddB, tDust, tGift]
theorem inflated_reachable : Reachable cfg .ex inflated := ⟨w0, w0_fresh, _, rfl⟩
/-- The victim pays in 19000 of LST 21. -/
def victim (m : Nat) : R World := processIx cfg .ex env ⟨[], 0⟩ inflated liqA (.addLiquidity ⟨1, 0, 19000, m⟩)
def robbed : World := (victim 1).toOption.getD w0

/-- The error of a refused deposit. -/
def errOf (x : R World) : Option Err := match x with | .ok _ => none | .error e => some e

/-- The attack works on whoever demands only one LP token: 19000 lamports for one of two LP tokens, worth 14500. Demanding what the deposit would have
earned before the gift, or only two LP tokens, the deposit is refused. -/
theorem inflated_facts : [lpSupply inflated, lpSupply robbed, totalOf robbed, lpWorth robbed 1] = [1, 2, 29001, 14500] ∧
    (victim 1).toOption.isSome = true ∧ errOf (victim 2) = some .slippageToleranceExceeded ∧
    errOf (victim 19000) = some .slippageToleranceExceeded ∧ bal robbed.led 43 = bal inflated.led 43 + 1 := by decide +kernel

theorem inflated_list : inflated.ctl.lsts[0]? = some ⟨0, 255, 255, 1, 21, 31⟩ := by decide +kernel
theorem inflated_pool : inflated.ctl.pool.map (fun p => (p.lpTokenMint, p.totalSolValue)) = some (20, 1) := by decide +kernel
theorem inflated_mint : (inflated.led.mints 21).map Mint.program = some 8 := by decide +kernel
theorem inflated_bal : bal inflated.led resA = 10001 := by decide +kernel

theorem inflation {w w' : World} (hr : Reachable cfg .ex w) (hl : w.ctl.lsts[0]? = some ⟨0, 255, 255, 1, 21, 31⟩)
    (hp : w.ctl.pool.map (fun p => (p.lpTokenMint, p.totalSolValue)) = some (20, 1)) (hm : (w.led.mints 21).map Mint.program = some 8)
    (hb : bal w.led resA = 10001) (hS : lpSupply w = 1)
    (h : processIx cfg .ex env ⟨[], 0⟩ w liqA (.addLiquidity ⟨1, 0, 19000, 1⟩) = .ok w') :
    ∃ T lp k, T = 10001 ∧ k = 0 ∧ lpSupply w' = lpSupply w + lp ∧ 1 ≤ lp ∧ 1 * T ≤ 19000 * lpSupply w ∧
      19000 * 1 * lpSupply w' < (1 + 1) * (lp * (totalOf w' + k)) ∧
      lpSupply w * totalOf w' < T * (lpSupply w' + 1) + lpSupply w * 1 := by
  obtain ⟨T, lp, k, userLp, hsync, hk, _, _, _, h1, h2, h3, h4, h5⟩ := C100_full (c := .wsol) hr (show signersOk cfg liqA by decide)
    (show env.Quiet from Env.pure_quiet)
    (valuedA w 0 (fun s hs => by rw [hl] at hs; injection hs with hs; subst hs; rfl)) trivial
    (fun p hpp n w ms a v r l hx => by
      have := (Env.pure_price.1 hx).1
      injection this with this; exact this.symm)
    (fun p s hpp hs => by
      rw [hpp] at hp; injection hp with hp; injection hp with hp _
      replace hs : w.ctl.lsts[0]? = some s := hs
      rw [hl] at hs; injection hs with hs; subst hs
      rw [hp]; decide) h
  have hT : T = 10001 := by
    obtain ⟨p', s', res, r, g1, g2, ⟨m, g3, g3'⟩, g4, g5⟩ := hsync
    rw [g1] at hp; injection hp with hp; injection hp with _ hp
    replace g2 : w.ctl.lsts[0]? = some s' := g2
    rw [hl] at g2; injection g2 with g2; subst g2
    replace g3 : w.led.mints 21 = some m := g3
    rw [g3] at hm; injection hm with hm
    rw [hm] at g3'
    replace g3' : some resA = some res := g3'
    injection g3' with g3'
    rw [← g3', hb] at g4
    replace g4 : (Except.ok ⟨10001, 10001⟩ : R Range) = .ok r := g4
    injection g4 with g4
    subst g4
    replace g5 : T + 1 = p'.totalSolValue + 10001 := g5
    replace hp : p'.totalSolValue = 1 := hp
    omega
  have hk := hk trivial
  exact ⟨T, lp, k, hT, hk, h1, h2, h3 (by omega), h4 (fun _ => by omega), h5 (by omega) (by omega)⟩

-- C100 applies to it: with `m = 1` the loss is below one half of the deposit, and the attacker gains less than an LP token's price.
example : ∃ w' T lp k, victim 1 = .ok w' ∧ T = 10001 ∧ k = 0 ∧ lpSupply w' = lpSupply inflated + lp ∧ 1 ≤ lp ∧ 1 * T ≤ 19000 * lpSupply inflated ∧
    19000 * 1 * lpSupply w' < (1 + 1) * (lp * (totalOf w' + k)) ∧
    lpSupply inflated * totalOf w' < T * (lpSupply w' + 1) + lpSupply inflated * 1 := by
  obtain ⟨w', hw⟩ := ok_of_isSome inflated_facts.2.1
  obtain ⟨T, lp, k, h⟩ := inflation inflated_reachable inflated_list inflated_pool inflated_mint inflated_bal (by decide +kernel) hw
  exact ⟨w', T, lp, k, hw, h⟩

-- The same for the deployed system: the second deposit of the example history, 20000 of LST 22 worth 30000 lamports.
example : ∃ e ∈ systemEvents .ex sys0 (sysHist.take 16), ∃ T lp k : Nat, k ≤ 1 ∧ lpSupply e.post.world = lpSupply e.pre.world + lp ∧ 1 ≤ lp ∧
    (lpSupply e.pre.world ≠ 0 → 1 * T ≤ 30000 * lpSupply e.pre.world) := by
  obtain ⟨e, hpre, _, hix, hev⟩ := sysEv (n := 15) (o := outside 0 5000) (accs := sysLiqB) (ix := .addLiquidity ⟨5, 1, 20000, 1⟩) rfl
    (by decide +kernel) (by decide +kernel)
  have he : e ∈ systemEvents .ex sys0 (sysHist.take 16) := by rw [hev]; simp
  obtain ⟨p, hp, hpp⟩ := sys_prog sys_lists.2.2.1
  have hB : (sysAt 15).world.ctl.lsts[1]? = some ⟨0, 255, 255, 0, 22, 32⟩ := by decide +kernel
  have hlp : (sysAt 15).world.ctl.pool.map PoolState.lpTokenMint = some 20 := by decide +kernel
  rw [← hpre] at hp hB hlp
  have hne : p.lpTokenMint ≠ 22 := by
    rw [hp] at hlp; injection hlp with hlp; rw [hlp]; decide
  have hr := sys_reads (s := sys0) (h := sysHist.take 16) (fun t ht => List.mem_of_mem_take ht) (by decide +kernel) e he
  obtain ⟨T, lp, k, userLp, _, _, hk, _, _, hS, hm, hprice, _⟩ := C100_system (L := .ex) sys0_fresh he hr hix hp hpp hB hne
  have : (Ex.val 22).f 20000 = 30000 := by decide +kernel
  refine ⟨e, he, T, lp, k, hk, hS, hm, ?_⟩
  rw [← this]
  exact hprice
end Ex
end S
