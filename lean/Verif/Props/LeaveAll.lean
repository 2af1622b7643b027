import Verif.Props.Deployed
/-
C92: liquidity providers of any size can leave, in several redemptions, without anybody's help.
-/
set_option autoImplicit false
namespace S
section
variable {sc : SysCfg}

/-! ### Specification -/

/-- The deployed pool is in order: neither disabled nor rebalancing, of at least one LST, no more LP tokens (nor other tokens) around than were minted, the
repository's pricing program taking a withdrawal fee of `bps`; every LST's calculator is in working order, called with the accounts `calcAccs` of its mint, and its
recorded value is what the stake pool pays for the reserves. -/
structure Sys.Orderly (L : RatioLib) (s : Sys sc) (o : Outside sc) (calcAccs : Pubkey → List Acc) (priceAccs : List Acc) (bps : Nat) (p : PoolState) : Prop where
  pool : s.world.ctl.pool = some p
  enabled : p.isDisabled = 0
  still : p.isRebalancing = 0
  some : s.world.ctl.lsts ≠ []
  count : s.world.ctl.lsts.length ≤ 2 ^ 32
  apart : ∀ x ∈ s.world.ctl.lsts, x.mint ≠ p.lpTokenMint
  backed : s.world.led.Backed
  fee : s.WithdrawalFee L p.pricingProgram priceAccs bps
  worth : ∀ x ∈ s.world.ctl.lsts, ∃ (cal : AnyCalc) (reserves : Nat), cal.Usable ∧ s.CalcWorks L o x.solValueCalculator x.mint (calcAccs x.mint) cal ∧
    ReservesAre sc.cfg s.world x reserves ∧ cal.Fits reserves ∧ x.solValue = cal.payout reserves

/-- The accounts of somebody with LP tokens: `userLp` for these, and one for every LST. -/
structure Purse (sc : SysCfg) (s : Sys sc) (p : PoolState) (signer userLp : Pubkey) (userLst : Pubkey → Pubkey) : Prop where
  lst : ∀ x ∈ s.world.ctl.lsts, ∃ a, Wallet sc.cfg s.world.led (userLst x.mint) x.mint a
  lp : ∃ a, Wallet sc.cfg s.world.led userLp p.lpTokenMint a ∧ a.owner = signer

/-- One redemption, of `amount` LP tokens for `out` of the LST `x`: a transaction of one instruction, built by the client library and signed by the holder only. It
burns `amount` of the holder's LP tokens and pays `out` of the LST at least, which is what the LST's calculator makes of their share of the pool's total value
less the withdrawal fee. -/
structure Redemption (L : RatioLib) (o : Outside sc) (calcAccs : Pubkey → List Acc) (priceAccs : List Acc) (bps : Nat) (signer userLp : Pubkey)
    (userLst : Pubkey → Pubkey) (s : Sys sc) (x : LstState) (amount out : Nat) (s' : Sys sc) : Prop where
  listed : x ∈ s.world.ctl.lsts
  burns : 0 < amount
  pays : 0 < out
  tx : ∃ p m ix accs, s.world.ctl.pool = some p ∧ s.world.led.mints x.mint = some m ∧
    removeLiquidityByMint sc.cfg p s.world.ctl.lsts
      ⟨signer, userLst x.mint, userLp, ⟨x.mint, m.program⟩, roMeta x.mint :: calcAccs x.mint, roMeta x.mint :: priceAccs⟩ amount out = .ok ix ∧
    SeenAs ix.accs accs ∧ (∀ a ∈ accs, a.signer = true → a.key = signer) ∧ SysTx.run L s [.controller o accs ix.data] = .ok s'
  burned : bal s'.world.led userLp + amount = bal s.world.led userLp
  paid : bal s.world.led (userLst x.mint) + out ≤ bal s'.world.led (userLst x.mint)
  price : ∃ p lm cal r, s.world.ctl.pool = some p ∧ s.world.led.mints p.lpTokenMint = some lm ∧
    s.CalcWorks L o x.solValueCalculator x.mint (calcAccs x.mint) cal ∧
    (cal.calculator L).solToLst (afterFee (amount * p.totalSolValue / lm.supply) bps) = .ok r ∧ r.min = out

/-- A sequence of redemptions, each `(x, amount, out)`. -/
inductive Leaves (L : RatioLib) (o : Outside sc) (calcAccs : Pubkey → List Acc) (priceAccs : List Acc) (bps : Nat) (signer userLp : Pubkey)
    (userLst : Pubkey → Pubkey) : Sys sc → List (LstState × Nat × Nat) → Sys sc → Prop where
  | done (s : Sys sc) : Leaves L o calcAccs priceAccs bps signer userLp userLst s [] s
  | step {s s₁ s' : Sys sc} {x : LstState} {amount out : Nat} {rest : List (LstState × Nat × Nat)} :
      Redemption L o calcAccs priceAccs bps signer userLp userLst s x amount out s₁ →
      Leaves L o calcAccs priceAccs bps signer userLp userLst s₁ rest s' →
      Leaves L o calcAccs priceAccs bps signer userLp userLst s ((x, amount, out) :: rest) s'

/-- The `left` LP tokens are dust: fewer than there are LSTs, or of so little value that, of as many of them as make an `n`-th of all LP tokens (`n` LSTs), the share
less the withdrawal fee does not buy a base unit of any LST whose reserves cover it; there is such an LST. -/
def Sys.Dust (L : RatioLib) (s : Sys sc) (o : Outside sc) (calcAccs : Pubkey → List Acc) (bps : Nat) (p : PoolState) (left : Nat) : Prop :=
  left < s.world.ctl.lsts.length ∨
  ∃ lm v, s.world.led.mints p.lpTokenMint = some lm ∧ v = min left (lm.supply / s.world.ctl.lsts.length) * p.totalSolValue / lm.supply ∧
    (∃ x ∈ s.world.ctl.lsts, v ≤ x.solValue) ∧
    ∀ x ∈ s.world.ctl.lsts, v ≤ x.solValue → ∃ cal, s.CalcWorks L o x.solValueCalculator x.mint (calcAccs x.mint) cal ∧ cal.Usable ∧
      ¬∃ r, (cal.calculator L).solToLst (afterFee v bps) = .ok r ∧ 0 < r.min

/-! ### Proofs -/

variable {L : RatioLib} {o : Outside sc} {calcAccs : Pubkey → List Acc} {priceAccs : List Acc} {bps : Nat} {signer userLp : Pubkey} {userLst : Pubkey → Pubkey}

theorem Sys.CalcWorks.noSigner {s : Sys sc} {prog mint : Pubkey} {accs : List Acc} {cal : AnyCalc} (h : s.CalcWorks L o prog mint accs cal) :
    ∀ a ∈ accs, a.signer = false := by
  rcases h with ⟨_, _, rfl, _⟩ | ⟨pc, _, _, pool, pd, st, rfl, _⟩
  · simp
  · intro a ha
    simp only [List.mem_cons, List.not_mem_nil, or_false] at ha
    rcases ha with rfl | rfl | rfl | rfl <;> rfl

theorem Sys.WithdrawalFee.noSigner {s : Sys sc} {prog : Pubkey} {accs : List Acc} {bps : Nat} (h : s.WithdrawalFee L prog accs bps) :
    ∀ a ∈ accs, a.signer = false := by
  rcases h with ⟨_, rfl, _⟩ | ⟨_, rfl, _⟩
  · intro a ha; simp only [List.mem_cons, List.not_mem_nil, or_false] at ha; subst ha; rfl
  · simp

theorem redeem_signers {cfg : Cfg} {p : PoolState} {lsts : List LstState} {r : LiqRequest} {amount minOut : Nat} {ix : TopIx}
    (h : removeLiquidityByMint cfg p lsts r amount minOut = .ok ix) (hc : ∀ a ∈ r.calcMetas, a.signer = false) (hq : ∀ a ∈ r.priceMetas, a.signer = false) :
    ∀ a ∈ ix.accs, a.signer = true → a.key = r.signer := by
  simp only [removeLiquidityByMint, resolveLiq, bind_ok, Prod.exists, pure_ok, Prod.mk.injEq, removeLiquidityIx, indexToU32_ok, extendOne_ok] at h
  obtain ⟨k, i, c, pr, ⟨i', s, hfind, rk, hrk, ak, hak, rfl, rfl, rfl, rfl⟩, j, ⟨hj, rfl⟩, a1, n1, ⟨hn1, rfl, rfl⟩, a2, n2, ⟨hn2, rfl, rfl⟩, rfl⟩ := h
  intro a ha hs
  simp only [List.mem_append, List.mem_cons, LiqKeys.metas, List.not_mem_nil, or_false] at ha
  rcases ha with ((rfl | rfl | rfl | rfl | rfl | rfl | rfl | rfl | rfl | rfl | rfl) | rfl | ha) | rfl | ha
  · rfl
  all_goals first
    | (cases hs; done)
    | exact absurd (hs.symm.trans (hc a (List.mem_of_mem_drop ha))) (by simp)
    | exact absurd (hs.symm.trans (hq a (List.mem_of_mem_drop ha))) (by simp)

theorem runSystem_one {s₀ s s' : Sys sc} {h : List (SysTx sc)} (hs : runSystem L s₀ h = s) {t : SysTx sc} (ht : SysTx.run L s t = .ok s') :
    runSystem L s₀ (h ++ [t]) = s' := by
  simp only [runSystem, List.foldl_append, List.foldl_cons, List.foldl_nil] at hs ⊢
  rw [hs, SysTx.apply, ht]

/-- One redemption leaves the pool in order. -/
theorem orderly_step {s₀ s : Sys sc} (hf : s₀.Fresh) {h : List (SysTx sc)} (hs : runSystem L s₀ h = s) (hq : o.other.Quiet) {p : PoolState}
    (ho : s.Orderly L o calcAccs priceAccs bps p) (hw : Purse sc s p signer userLp userLst) {x : LstState} (hx : x ∈ s.world.ctl.lsts)
    {lm : Mint} (hlm : s.world.led.mints p.lpTokenMint = some lm) {amount v : Nat} (hamount : 0 < amount) (hbal : amount ≤ bal s.world.led userLp)
    (hv : v = amount * p.totalSolValue / lm.supply) (hcov : v ≤ x.solValue)
    {cal : AnyCalc} {reserves : Nat} (hu : cal.Usable) (hcw : s.CalcWorks L o x.solValueCalculator x.mint (calcAccs x.mint) cal)
    (hres : ReservesAre sc.cfg s.world x reserves) (hfit : cal.Fits reserves) (hval : x.solValue = cal.payout reserves)
    {r : Range} (hout : (cal.calculator L).solToLst (afterFee v bps) = .ok r) (hpos : 0 < r.min) :
    ∃ s' p' t, Redemption L o calcAccs priceAccs bps signer userLp userLst s x amount r.min s' ∧ SysTx.run L s t = .ok s' ∧
      s'.Orderly L o calcAccs priceAccs bps p' ∧ Purse sc s' p' signer userLp userLst := by
  have hreach : Reachable sc.cfg L s.world := hs ▸ C65_reachable hf h
  obtain ⟨i, hi⟩ := List.getElem?_of_mem hx
  obtain ⟨m, rk, ak, ra, fa, la⟩ := hreach.inv.accs x hx
  have hsv : x.solValue ≤ p.totalSolValue := by rw [hreach.inv.ctl.total p ho.pool]; exact le_sumSol hx
  have hilt := (List.getElem?_eq_some_iff.1 hi).1
  obtain ⟨lp, hlp, hown⟩ := hw.lp
  have hble : amount ≤ lp.amount := by simpa [bal, hlp.tok] using hbal
  obtain ⟨ix, hix, hacc⟩ := redeem_post hf hs ho.backed hq ho.pool ho.enabled ho.still hi (Nat.lt_of_lt_of_le hilt ho.count) (ho.apart x hx) la.mint hlm hu hcw ho.fee hres
    hfit (total := p.totalSolValue) (by omega) (hreach.inv.ctl.total_u64 p ho.pool) hv hout hpos (by omega) (signer := signer) (userLst := userLst x.mint) (userLp := userLp)
    hamount ⟨hw.lst x hx, lp, hlp, hown, hble⟩
  have hsig : ∀ a ∈ ix.accs, a.signer = true → a.key = signer := by
    refine redeem_signers hix ?_ ?_
    · intro a ha
      rcases List.mem_cons.1 ha with rfl | ha
      · rfl
      · exact hcw.noSigner a ha
    · intro a ha
      rcases List.mem_cons.1 ha with rfl | ha
      · rfl
      · exact ho.fee.noSigner a ha
  obtain ⟨s', hrun, hburn, hpaid, w', rfl, hred⟩ := hacc ix.accs (SeenAs.refl _) hsig
  obtain ⟨T, left, hle, hleft, hctl⟩ := hred.ctl
  refine ⟨_, { p with totalSolValue := T }, _, ⟨hx, hamount, hpos, ⟨p, m, ix, ix.accs, ho.pool, la.mint, hix, SeenAs.refl _, hsig, hrun⟩, hburn, hpaid,
    ⟨p, lm, cal, r, ho.pool, hlm, hcw, hv ▸ hout, rfl⟩⟩, hrun, ?_, ?_⟩
  · have hbacked : (runSystem L s [[SysStep.controller o ix.accs ix.data]]).world.led.Backed := by
      refine system_backed ho.backed ?_ ?_
      · intro e he f ok ha
        obtain ⟨t, h1, y, h2, h3⟩ := systemEvents_act he
        simp only [List.mem_cons, List.not_mem_nil, or_false] at h1; subst h1
        simp only [List.mem_cons, List.not_mem_nil, or_false] at h2; subst h2
        rw [ha] at h3; simp [SysStep.actions] at h3
      · intro e he o' accs data ha
        obtain ⟨t, h1, y, h2, h3⟩ := systemEvents_act he
        simp only [List.mem_cons, List.not_mem_nil, or_false] at h1; subst h1
        simp only [List.mem_cons, List.not_mem_nil, or_false] at h2; subst h2
        rw [ha] at h3
        simp only [SysStep.actions, List.mem_cons, List.not_mem_nil, or_false, SysAction.controller.injEq] at h3
        rw [h3.1]; exact hq
    have hone := runSystem_one (s₀ := s) (h := []) rfl hrun
    rw [List.nil_append] at hone
    rw [hone] at hbacked
    have hlsts : w'.ctl.lsts = s.world.ctl.lsts.set i { x with solValue := cal.f left } := by rw [hctl]
    have hmem : ∀ y ∈ w'.ctl.lsts, y = { x with solValue := cal.f left } ∨ ∃ j, j ≠ i ∧ s.world.ctl.lsts[j]? = Option.some y := by
      intro y hy
      rw [hlsts] at hy
      obtain ⟨j, hj⟩ := List.getElem?_of_mem hy
      rw [List.getElem?_set] at hj
      split at hj
      · injection hj with hj; exact .inl hj.symm
      · rename_i hne; exact .inr ⟨j, fun e => hne e.symm, hj⟩
    refine { pool := by show w'.ctl.pool = _; rw [hctl], enabled := ho.enabled, still := ho.still, some := ?_, count := ?_, apart := ?_, backed := hbacked, fee := ho.fee, worth := ?_ }
    · show w'.ctl.lsts ≠ []
      rw [hlsts]; intro e
      have := congrArg List.length e
      simp at this; exact ho.some this
    · show w'.ctl.lsts.length ≤ _
      rw [hlsts, List.length_set]; exact ho.count
    · intro y hy
      rcases hmem y hy with rfl | ⟨j, -, hj⟩
      · exact ho.apart x hx
      · exact ho.apart y (List.mem_of_getElem? hj)
    · intro y hy
      rcases hmem y hy with rfl | ⟨j, hne, hj⟩
      · have hd := AnyCalc.lstToSol_down (L := L) hu hle ((C71_value L hu).2 ⟨rfl, hfit⟩)
        obtain ⟨e, hfit'⟩ := (C71_value L hu).1 hd
        exact ⟨cal, left, hu, hcw, hleft, hfit', congrArg Range.min e⟩
      · obtain ⟨c, n, g1, g2, g3, g4, g5⟩ := ho.worth y (List.mem_of_getElem? hj)
        exact ⟨c, n, g1, g2, hred.others j y n hne hj g3, g4, g5⟩
  · have hlsts : w'.ctl.lsts = s.world.ctl.lsts.set i { x with solValue := cal.f left } := by rw [hctl]
    refine ⟨?_, ?_⟩
    · intro y hy
      have : ∃ z ∈ s.world.ctl.lsts, z.mint = y.mint := by
        have hy : y ∈ w'.ctl.lsts := hy
        rw [hlsts] at hy
        rcases List.mem_or_eq_of_mem_set hy with hy | rfl
        · exact ⟨y, hy, rfl⟩
        · exact ⟨x, hx, rfl⟩
      obtain ⟨z, hz, e⟩ := this
      obtain ⟨a, ha⟩ := hw.lst z hz
      obtain ⟨a', ha', -⟩ := hred.wallets _ _ _ ha
      rw [← e]; exact ⟨a', ha'⟩
    · obtain ⟨a', ha', e⟩ := hred.wallets _ _ _ hlp
      exact ⟨a', ha', e.trans hown⟩

/-- C92. After any history of the deployed system, whoever holds LP tokens of a pool that is in order can leave it by redemptions alone, however much of the pool is theirs:
there is a sequence of redemptions, each paying the full share less the withdrawal fee, after which what is left of the LP tokens is dust. -/
theorem C92_leave_all {s₀ s : Sys sc} (hf : s₀.Fresh) {h : List (SysTx sc)} (hs : runSystem L s₀ h = s) (hq : o.other.Quiet) {p : PoolState}
    (ho : s.Orderly L o calcAccs priceAccs bps p) (hw : Purse sc s p signer userLp userLst) :
    ∃ l s' p', Leaves L o calcAccs priceAccs bps signer userLp userLst s l s' ∧ s'.Orderly L o calcAccs priceAccs bps p' ∧
      s'.Dust L o calcAccs bps p' (bal s'.world.led userLp) := by
  generalize hn : bal s.world.led userLp = n
  induction n using Nat.strongRecOn generalizing s h p with
  | _ n ih =>
    have hreach : Reachable sc.cfg L s.world := hs ▸ C65_reachable hf h
    by_cases hd : s.Dust L o calcAccs bps p n
    · exact ⟨[], s, p, .done s, ho, hn ▸ hd⟩
    · have hge : s.world.ctl.lsts.length ≤ n := by
        by_contra hc; exact hd (.inl (by omega))
      obtain ⟨lm, hlm, -⟩ := hreach.inv.lp p ho.pool
      have hlen : 0 < s.world.ctl.lsts.length := List.length_pos_iff.2 ho.some
      obtain ⟨lp, hlp, -⟩ := hw.lp
      have hsup : n ≤ lm.supply := by
        have h1 := ho.backed.one _ _ _ hlp.tok (by rw [hlp.mint]; exact hlm)
        have h2 : bal s.world.led userLp = lp.amount := by simp [bal, hlp.tok]
        omega
      generalize hamt : min n (lm.supply / s.world.ctl.lsts.length) = amount
      have ha0 : 0 < amount := by
        rw [← hamt]
        have : 0 < lm.supply / s.world.ctl.lsts.length := Nat.div_pos (by omega) hlen
        omega
      have hmul : amount * s.world.ctl.lsts.length ≤ lm.supply :=
        Nat.le_trans (Nat.mul_le_mul_right _ (by rw [← hamt]; exact Nat.min_le_right _ _)) (Nat.div_mul_le_self _ _)
      obtain ⟨i, x, hx, hcov⟩ := C70_some_lst_covers hreach ho.pool ho.some hlm hmul
      have : ∃ x ∈ s.world.ctl.lsts, amount * p.totalSolValue / lm.supply ≤ x.solValue ∧ ∃ (cal : AnyCalc) (reserves : Nat) (r : Range), cal.Usable ∧
          s.CalcWorks L o x.solValueCalculator x.mint (calcAccs x.mint) cal ∧ ReservesAre sc.cfg s.world x reserves ∧ cal.Fits reserves ∧
          x.solValue = cal.payout reserves ∧ (cal.calculator L).solToLst (afterFee (amount * p.totalSolValue / lm.supply) bps) = .ok r ∧ 0 < r.min := by
        by_contra hc
        refine hd (.inr ⟨lm, amount * p.totalSolValue / lm.supply, hlm, by rw [hamt], ⟨x, List.mem_of_getElem? hx, hcov⟩, ?_⟩)
        intro y hy hle
        obtain ⟨cal, reserves, g1, g2, g3, g4, g5⟩ := ho.worth y hy
        exact ⟨cal, g2, g1, fun ⟨r, h1, h2⟩ => hc ⟨y, hy, hle, cal, reserves, r, g1, g2, g3, g4, g5, h1, h2⟩⟩
      obtain ⟨x, hx, hcov, cal, reserves, r, g1, g2, g3, g4, g5, g6, g7⟩ := this
      obtain ⟨s₁, p₁, t, hstep, hrun, ho₁, hw₁⟩ := orderly_step hf hs hq ho hw hx hlm ha0 (by rw [← hamt]; omega) rfl hcov g1 g2 g3 g4 g5 g6 g7
      have hb := hstep.burned
      obtain ⟨l, s', p', k1, k2, k3⟩ := ih (bal s₁.world.led userLp) (by omega) (runSystem_one hs hrun) ho₁ hw₁ rfl
      exact ⟨_, s', p', .step hstep k1, k2, k3⟩

/-- C92: every LP token burned on the way out is one of the holder's, and the redemptions are an ordinary continuation of the history, one transaction each. -/
theorem C92_accounts {s s' : Sys sc} {l : List (LstState × Nat × Nat)} (h : Leaves L o calcAccs priceAccs bps signer userLp userLst s l s') :
    bal s'.world.led userLp + (l.map (fun e => e.2.1)).sum = bal s.world.led userLp ∧
    ∃ txs : List (SysTx sc), txs.length = l.length ∧ (∀ t ∈ txs, ∃ accs data, t = [SysStep.controller o accs data]) ∧ runSystem L s txs = s' := by
  induction h with
  | done s => exact ⟨by simp, [], rfl, by simp, rfl⟩
  | @step s s₁ s' x amount out rest h1 _ ih =>
    obtain ⟨e, txs, hl, hc, hr⟩ := ih
    have := h1.burned
    obtain ⟨p, m, ix, accs, -, -, -, -, -, hrun⟩ := h1.tx
    refine ⟨by simp only [List.map_cons, List.sum_cons]; omega, [.controller o accs ix.data] :: txs, by simp [hl], ?_, ?_⟩
    · intro t ht
      rcases List.mem_cons.1 ht with rfl | ht
      · exact ⟨_, _, rfl⟩
      · exact hc t ht
    · rw [← hr]
      show runSystem L (SysTx.apply L s _) txs = _
      rw [SysTx.apply, hrun]

/-- C92: how little dust is. If the calculators pay at least a base unit of their LST for `q` lamports or more (up to the value of the reserves), then the dust is less than one
LP token per LST, or the share of it, less the withdrawal fee, is worth less than `q` lamports; of the share, this holds for as many LP tokens as make an `n`-th of all. -/
theorem C92_dust {s : Sys sc} {p : PoolState} {left : Nat} (h : s.Dust L o calcAccs bps p left) {q : Nat}
    (hq : ∀ x ∈ s.world.ctl.lsts, ∀ cal, s.CalcWorks L o x.solValueCalculator x.mint (calcAccs x.mint) cal → cal.Usable → ∀ u, q ≤ u → u ≤ x.solValue →
      ∃ r, (cal.calculator L).solToLst u = .ok r ∧ 0 < r.min) :
    left < s.world.ctl.lsts.length ∨
    ∃ lm, s.world.led.mints p.lpTokenMint = some lm ∧ afterFee (min left (lm.supply / s.world.ctl.lsts.length) * p.totalSolValue / lm.supply) bps < q := by
  rcases h with h | ⟨lm, v, hlm, rfl, ⟨x, hx, hle⟩, hall⟩
  · exact .inl h
  · refine .inr ⟨lm, hlm, ?_⟩
    obtain ⟨cal, h1, h2, h3⟩ := hall x hx hle
    by_contra hc
    exact h3 (hq x hx cal h1 h2 _ (by omega) (Nat.le_trans (Nat.sub_le _ _) hle))

end

/-! ### The example deployment -/

namespace Ex

def leaveAccs (mint : Pubkey) : List Acc := if mint = 21 then [] else [roMeta 701, roMeta 700, roMeta 702, roMeta 703]
def leaveWallet (mint : Pubkey) : Pubkey := if mint = 21 then 41 else 42

theorem sysOrderly : ∃ p, (sysAt 19).Orderly .ex (outside 0 5000) leaveAccs [roMeta 300] 25 p ∧ Purse sysc (sysAt 19) p 40 43 leaveWallet := by
  obtain ⟨p, hp, e⟩ := of_map leaving_pool
  simp only [Prod.mk.injEq] at e
  obtain ⟨e1, e2, e3, e4, e5⟩ := e
  obtain ⟨m0, m1, m2⟩ := leaving_mints
  obtain ⟨t1, t2, t3⟩ := leaving_toks
  have hr := leaving_res
  obtain ⟨a, b, hls, ha, hb⟩ := two_of leaving_lsts
  simp only [Prod.mk.injEq] at ha hb
  obtain ⟨a1, a2, a3⟩ := ha
  obtain ⟨b1, b2, b3⟩ := hb
  rw [hls] at hr
  simp only [List.map_cons, List.map_nil, List.cons.injEq, and_true] at hr
  refine ⟨p, ⟨hp, e2, e3, by rw [hls]; simp, by rw [hls]; simp, by rw [hls]; simp [a1, b1, e4], sysAt_backed 19,
    .inl ⟨e5, rfl, _, leaving_flat.1, rfl⟩, ?_⟩, ?_, ?_⟩
  · rw [hls]
    intro s hs
    simp only [List.mem_cons, List.not_mem_nil, or_false] at hs
    rcases hs with rfl | rfl
    · exact ⟨.wsol, 36008, True.intro, .inl ⟨a3, a1, by simp [a1, leaveAccs], rfl⟩, reservesAre (by rw [a1]; exact m1) hr.1, trivial, by rw [a2]; rfl⟩
    · exact ⟨.lido ⟨0, 2, 3⟩, 16004, ⟨by decide, by decide⟩, by rw [b3, b1]; exact lidoWorks,
        reservesAre (by rw [b1]; exact m2) hr.2, show 16004 * 3 / 2 < U64 by decide, by rw [b2]; rfl⟩
  · rw [hls]
    intro s hs
    simp only [List.mem_cons, List.not_mem_nil, or_false] at hs
    rcases hs with rfl | rfl
    · exact ⟨_, by rw [leaveWallet, if_pos a1, a1]; exact wallet t1 m1 rfl rfl rfl⟩
    · exact ⟨_, by rw [leaveWallet, if_neg (by rw [b1]; decide), b1]; exact wallet t2 m2 rfl rfl rfl⟩
  · exact ⟨_, by rw [e4]; exact wallet t3 m0 rfl rfl rfl, rfl⟩

/-- The holder of all 60000 LP tokens of the example's deployment leaves it. -/
theorem leaveAll : ∃ l s' p', Leaves .ex (outside 0 5000) leaveAccs [roMeta 300] 25 40 43 leaveWallet (sysAt 19) l s' ∧
    bal s'.world.led 43 + (l.map (fun e => e.2.1)).sum = 60000 ∧ s'.Dust .ex (outside 0 5000) leaveAccs 25 p' (bal s'.world.led 43) := by
  obtain ⟨p, ho, hw⟩ := sysOrderly
  obtain ⟨l, s', p', h1, -, h3⟩ := C92_leave_all (L := .ex) (s₀ := sys0) (h := sysHist.take 19) (s := sysAt 19) sys0_fresh rfl Env.pure_quiet ho hw
  refine ⟨l, s', p', h1, ?_, h3⟩
  rw [(C92_accounts h1).1, bal, leaving_toks.2.2]
  rfl

/-- Two lamports buy a base unit of either LST in the example. -/
theorem two_lamports : ∀ x ∈ (sysAt 19).world.ctl.lsts, ∀ cal, (sysAt 19).CalcWorks .ex (outside 0 5000) x.solValueCalculator x.mint (leaveAccs x.mint) cal → cal.Usable →
    ∀ u, 2 ≤ u → u ≤ x.solValue → ∃ r, (cal.calculator .ex).solToLst u = .ok r ∧ 0 < r.min := by
  intro x hx cal hcw hu u h2 hle
  have hcal : cal = .wsol ∨ cal = .lido ⟨0, 2, 3⟩ := by
    rcases hcw with ⟨-, -, -, h⟩ | ⟨pc, hpc, hprog, pool, pd, st, -, hup, -⟩
    · exact .inl h
    · obtain ⟨a, b, hls, ha, hb⟩ := two_of leaving_lsts
      simp only [Prod.mk.injEq] at ha hb
      rw [hls] at hx
      simp only [List.mem_cons, List.not_mem_nil, or_false] at hx
      simp only [sysc, List.mem_cons, List.not_mem_nil, or_false] at hpc
      rcases hx with rfl | rfl
      · rw [ha.2.2] at hprog
        rcases hpc with rfl | rfl | rfl | rfl | rfl <;> exact absurd hprog (by decide)
      · rw [hb.2.2] at hprog
        rcases hpc with rfl | rfl | rfl | rfl | rfl
        · obtain ⟨y, rfl, -, rfl, hat, -⟩ := hup
          exact .inr (by rw [lido_unique (readLido_ok.2 hat)])
        all_goals exact absurd hprog (by decide)
  have hu64 : u < 1000000 := by
    have hm := List.mem_map_of_mem (f := fun s : LstState => (s.mint, s.solValue, s.solValueCalculator)) hx
    rw [leaving_lsts] at hm
    simp only [List.mem_cons, Prod.mk.injEq, List.not_mem_nil, or_false] at hm
    omega
  have hU : (1000000 : Nat) < U64 := by decide
  rcases hcal with rfl | rfl
  · exact ⟨_, rfl, by simp only [Range.single]; omega⟩
  · exact ⟨⟨2 * u / 3, cdiv (2 * (u + 1)) 3⟩, (floorReverse_ok (L := .ex) (n := 3) (d := 2) (y := u) (by decide) (by decide)).2 ⟨rfl, by omega, by unfold cdiv; omega⟩, by simp only; omega⟩

-- A single LP token is dust in the example's pool of two LSTs, and, by the theorem, all of it that can be.
example (p : PoolState) : (sysAt 19).Dust .ex (outside 0 5000) leaveAccs 25 p 1 :=
  .inl (by rw [show (sysAt 19).world.ctl.lsts.length = 2 by simpa using congrArg List.length leaving_lsts]; decide)

end Ex
end S
