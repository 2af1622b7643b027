import Verif.Props.JupLive
/-!
# C70: liquidity providers can leave

A redemption of LP tokens is accepted by the controller whenever the LP tokens' share of the pool is worth no more than the reserves of the chosen LST: the protocol
fee, which is paid out of the same reserves, never makes the difference. In a synced pool of `n` LSTs there always is an LST that can pay out an `n`-th of
all LP tokens. Nothing else than disabling the pool or a rebalance can stop it, in particular no disabled LST input.
-/
set_option autoImplicit false
namespace S

/-! ### Arithmetic -/

/-- Both directions of a calculator are bounded by the same straight line. -/
theorem AnyCalc.line {c : AnyCalc} (h : c.Usable) (ha : c.Answers) :
    ∃ P Q o : Nat, 0 < Q ∧ (∀ y, Q * c.rmin y ≤ P * (y - o)) ∧ (∀ x, P * (c.f x - o) ≤ Q * x) := by
  cases c with
  | wsol => exact ⟨1, 1, 0, by omega, fun y => by simp [AnyCalc.rmin], fun x => by simp [AnyCalc.f]⟩
  | lido c =>
    obtain ⟨hb, hs⟩ := h
    refine ⟨c.stSolSupply, c.solBalance, 0, by omega, fun y => ?_, fun x => ?_⟩
    · exact Nat.mul_div_le _ _
    · rw [Nat.mul_comm c.solBalance]; exact Nat.mul_div_le _ _
  | spl c =>
    obtain ⟨ht, hs, hf⟩ := h
    by_cases hn : c.feeNum = 0
    · refine ⟨c.poolTokenSupply, c.totalLamports, 0, by omega, fun y => ?_, fun x => ?_⟩
      · simp only [AnyCalc.rmin, splFeeMin, hn, if_true]; exact Nat.mul_div_le _ _
      · simp only [AnyCalc.f, splFee, hn, if_true]; rw [Nat.mul_comm c.totalLamports]; exact Nat.mul_div_le _ _
    · have hlt : c.feeNum < c.feeDenom := by omega
      refine ⟨c.feeDenom * c.poolTokenSupply, c.totalLamports * (c.feeDenom - c.feeNum), 0, Nat.mul_pos (by omega) (by omega), fun y => ?_, fun x => ?_⟩
      · simp only [AnyCalc.rmin, splFeeMin, hn, if_false, Nat.sub_zero]
        have h1 := Nat.mul_div_le (c.feeDenom * (c.poolTokenSupply * y / c.totalLamports)) (c.feeDenom - c.feeNum)
        have h2 := Nat.mul_div_le (c.poolTokenSupply * y) c.totalLamports
        calc _ = c.totalLamports * ((c.feeDenom - c.feeNum) * (c.feeDenom * (c.poolTokenSupply * y / c.totalLamports) / (c.feeDenom - c.feeNum))) := by
              rw [Nat.mul_assoc]
          _ ≤ c.totalLamports * (c.feeDenom * (c.poolTokenSupply * y / c.totalLamports)) := Nat.mul_le_mul_left _ h1
          _ = c.feeDenom * (c.totalLamports * (c.poolTokenSupply * y / c.totalLamports)) := by ring
          _ ≤ c.feeDenom * (c.poolTokenSupply * y) := Nat.mul_le_mul_left _ h2
          _ = _ := by ring
      · simp only [AnyCalc.f, splFee, hn, if_false, Nat.sub_zero]
        have h1 := Nat.mul_div_le (x * (c.feeDenom - c.feeNum)) c.feeDenom
        have h2 := Nat.mul_div_le (x * (c.feeDenom - c.feeNum) / c.feeDenom * c.totalLamports) c.poolTokenSupply
        calc _ = c.feeDenom * (c.poolTokenSupply * (x * (c.feeDenom - c.feeNum) / c.feeDenom * c.totalLamports / c.poolTokenSupply)) := by rw [Nat.mul_assoc]
          _ ≤ c.feeDenom * (x * (c.feeDenom - c.feeNum) / c.feeDenom * c.totalLamports) := Nat.mul_le_mul_left _ h2
          _ = c.feeDenom * (x * (c.feeDenom - c.feeNum) / c.feeDenom) * c.totalLamports := by ring
          _ ≤ x * (c.feeDenom - c.feeNum) * c.totalLamports := Nat.mul_le_mul_right _ h1
          _ = _ := by ring
  | marinade c =>
    obtain ⟨n, hn⟩ := ha
    obtain ⟨h0, hm, hf⟩ := h
    have hn0 : n ≠ 0 := by rintro rfl; exact h0 hn
    have e : c.totalVirtualStaked.toOption.getD 0 = n := by rw [hn]; rfl
    by_cases hz : c.withdrawStakeAccountFeeCents = 0
    · refine ⟨c.msolSupply, n, 0, by omega, fun y => ?_, fun x => ?_⟩
      · simp only [AnyCalc.rmin, mndeFeeMin, hz, if_true, e]; exact Nat.mul_div_le _ _
      · simp only [AnyCalc.f, mndeFee, hz, if_true, e]; rw [Nat.mul_comm n]; exact Nat.mul_div_le _ _
    · generalize hD : MAX_BP_CENTS = D at hf
      refine ⟨c.msolSupply * D, n * (D - c.withdrawStakeAccountFeeCents), 1, Nat.mul_pos (by omega) (by omega), fun y => ?_, fun x => ?_⟩
      · simp only [AnyCalc.rmin, mndeFeeMin, hz, if_false, e, hD]
        have h1 := Nat.mul_div_le (D * (y - 1)) (D - c.withdrawStakeAccountFeeCents)
        have h2 := Nat.mul_div_le (c.msolSupply * (D * (y - 1) / (D - c.withdrawStakeAccountFeeCents))) n
        calc _ = (D - c.withdrawStakeAccountFeeCents) * (n * (c.msolSupply * (D * (y - 1) / (D - c.withdrawStakeAccountFeeCents)) / n)) := by ring
          _ ≤ (D - c.withdrawStakeAccountFeeCents) * (c.msolSupply * (D * (y - 1) / (D - c.withdrawStakeAccountFeeCents))) := Nat.mul_le_mul_left _ h2
          _ = c.msolSupply * ((D - c.withdrawStakeAccountFeeCents) * (D * (y - 1) / (D - c.withdrawStakeAccountFeeCents))) := by ring
          _ ≤ c.msolSupply * (D * (y - 1)) := Nat.mul_le_mul_left _ h1
          _ = _ := by ring
      · simp only [AnyCalc.f, mndeFee, hz, if_false, e, hD]
        generalize hu : x * n / c.msolSupply = u
        have h1 : c.msolSupply * u ≤ x * n := by rw [← hu]; exact Nat.mul_div_le _ _
        have h2 : D * (cdiv (u * (D - c.withdrawStakeAccountFeeCents)) D - 1) ≤ u * (D - c.withdrawStakeAccountFeeCents) := by
          have := Nat.mul_div_le (u * (D - c.withdrawStakeAccountFeeCents) + D - 1) D
          rw [Nat.mul_sub, Nat.mul_one, cdiv]
          have hD0 : 0 < D := by omega
          omega
        calc _ = c.msolSupply * (D * (cdiv (u * (D - c.withdrawStakeAccountFeeCents)) D - 1)) := by rw [Nat.mul_assoc]
          _ ≤ c.msolSupply * (u * (D - c.withdrawStakeAccountFeeCents)) := Nat.mul_le_mul_left _ h2
          _ = c.msolSupply * u * (D - c.withdrawStakeAccountFeeCents) := by ring
          _ ≤ x * n * (D - c.withdrawStakeAccountFeeCents) := Nat.mul_le_mul_right _ h1
          _ = _ := by ring

/-- The amount paid to the user for `after` together with the protocol's part `φ ≤ v - after` of the fee is within reserves worth at least `v`. -/
theorem AnyCalc.redeem_fits {c : AnyCalc} (h : c.Usable) (ha : c.Answers) {v after φ res : Nat} (h0 : 0 < after) (hle : after ≤ v) (hφ : φ ≤ v - after)
    (hv : v ≤ c.f res) : c.rmin after + φ * c.rmin after / after ≤ res := by
  obtain ⟨P, Q, o, hQ, h1, h2⟩ := c.line h ha
  have hfee := Nat.mul_div_le (φ * c.rmin after) after
  generalize hout : c.rmin after = out at *
  generalize φ * out / after = fee at *
  have a1 : after * (out + fee) ≤ v * out := by
    have : φ * out ≤ (v - after) * out := Nat.mul_le_mul_right _ hφ
    rw [Nat.sub_mul] at this
    have : after * out ≤ v * out := Nat.mul_le_mul_right _ hle
    rw [Nat.mul_add]; omega
  have a2 : Q * out ≤ P * (after - o) := by rw [← hout]; exact h1 after
  have a3 : v * (after - o) ≤ after * (v - o) := by
    by_cases ho : after ≤ o
    · rw [Nat.sub_eq_zero_of_le ho]; simp
    · rw [Nat.mul_sub, Nat.mul_sub, Nat.mul_comm v after]
      have : after * o ≤ v * o := Nat.mul_le_mul_right _ hle
      omega
  have a4 : P * (v - o) ≤ Q * res := Nat.le_trans (Nat.mul_le_mul_left _ (by omega)) (h2 res)
  have a5 : after * Q * (out + fee) ≤ after * Q * res := by
    calc after * Q * (out + fee) = Q * (after * (out + fee)) := by ring
      _ ≤ Q * (v * out) := Nat.mul_le_mul_left _ a1
      _ = v * (Q * out) := by ring
      _ ≤ v * (P * (after - o)) := Nat.mul_le_mul_left _ a2
      _ = P * (v * (after - o)) := by ring
      _ ≤ P * (after * (v - o)) := Nat.mul_le_mul_left _ a3
      _ = after * (P * (v - o)) := by ring
      _ ≤ after * (Q * res) := Nat.mul_le_mul_left _ a4
      _ = _ := by ring
  exact Nat.le_of_mul_le_mul_left a5 (Nat.mul_pos h0 hQ)

theorem bpsCeilFee_exists {bps amt : Nat} (h : bps ≤ 10000) : ∃ a, bpsCeilFeeApply bps amt = .ok a ∧ a.feeCharged ≤ amt := by
  have key : ceilFee bps BPS amt ≤ amt := by
    by_cases hb : bps = 0 ∨ bps < BPS
    · exact (ceilFee_eq hb).2
    · obtain rfl : bps = 10000 := by simp only [BPS] at hb; omega
      simp only [ceilFee, BPS, cdiv]
      split <;> omega
  refine ⟨⟨amt - ceilFee bps BPS amt, ceilFee bps BPS amt⟩, ?_, key⟩
  simp only [bpsCeilFeeApply, ceilFeeApply, bind_ok, feeNew_ok, exists_const, subU64_ok, pure_ok]
  exact ⟨h, _, ⟨rfl, key⟩, rfl⟩

section
variable {cfg : Cfg} {L : RatioLib} {env : Env cfg} {w : World}

/-! ### Specification -/

/-- `res` holds the reserves of the LST `s`, an amount `n`. -/
def ReservesAre (cfg : Cfg) (w : World) (s : LstState) (n : Nat) : Prop :=
  ∃ m k a, w.led.mints s.mint = some m ∧ cfg.ata cfg.poolState m.program s.mint s.poolReservesBump = some k ∧ w.led.tok k = some a ∧ a.amount = n

/-- A holder of LP tokens, with the accounts of a redemption. -/
structure Holder (cfg : Cfg) (w : World) (p : PoolState) (signer userLst userLp mint : Pubkey) (amount : Nat) : Prop where
  /-- A token account for the LST. -/
  lst : ∃ a, Wallet cfg w.led userLst mint a
  /-- The signer's LP tokens. -/
  lp : ∃ a, Wallet cfg w.led userLp p.lpTokenMint a ∧ a.owner = signer ∧ amount ≤ a.amount

/-- What a redemption of `amount` LP tokens for the LST `s`, entry `i`, leaves behind: the reserves are no larger, the recorded value of the LST is that of the reserves by
its calculator `cal`, nothing else of the controller's accounts has changed but the total; the other LSTs' reserves are the same; every wallet is still there; of
the mints, only the LP supply has changed. -/
structure Redeemed (cfg : Cfg) (w w' : World) (p : PoolState) (i : Nat) (s : LstState) (lm : Mint) (cal : AnyCalc) (amount reserves : Nat) : Prop where
  ctl : ∃ T left, left ≤ reserves ∧ ReservesAre cfg w' s left ∧
    w'.ctl = { w.ctl with pool := some { p with totalSolValue := T }, lsts := w.ctl.lsts.set i { s with solValue := cal.f left } }
  others : ∀ j t n, j ≠ i → w.ctl.lsts[j]? = some t → ReservesAre cfg w t n → ReservesAre cfg w' t n
  wallets : ∀ k mint a, Wallet cfg w.led k mint a → ∃ a', Wallet cfg w'.led k mint a' ∧ a'.owner = a.owner
  mints : w'.led.mints = upd w.led.mints p.lpTokenMint (some { lm with supply := lm.supply - amount })

theorem move_same {l : Ledger} {src dst : Pubkey} {a b : TokenAcc} {n : Nat} (ha : l.tok src = some a) (hb : l.tok dst = some b) (h : src ≠ dst) :
    SameAccounts l (l.move src dst a b n) := by
  intro k
  by_cases h1 : k = src
  · subst h1; rw [move_src h, ha]; rfl
  · by_cases h2 : k = dst
    · subst h2; rw [move_dst, hb]; rfl
    · rw [move_other h1 h2]

theorem redeemed_of {w' : World} {p : PoolState} {i : Nat} {s : LstState} {lm m : Mint} {cal : AnyCalc} {amount n fee T : Nat} {ul lp ra fa : TokenAcc}
    {userLst userLp rk ak : Pubkey}
    (hinv : Inv cfg w) (hs : w.ctl.lsts[i]? = some s) (la : LstAccounts cfg w.led s m rk ak ra fa)
    (hul : Wallet cfg w.led userLst s.mint ul) (hlp : Wallet cfg w.led userLp p.lpTokenMint lp) (hlm : w.led.mints p.lpTokenMint = some lm)
    (hne : s.mint ≠ p.lpTokenMint)
    (hctl : w'.ctl = { w.ctl with pool := some { p with totalSolValue := T }, lsts := w.ctl.lsts.set i { s with solValue := cal.f (ra.amount - n - fee) } })
    (hled : w'.led = (((w.led.setTok userLp (some { lp with amount := lp.amount - amount })).setMint p.lpTokenMint (some { lm with supply := lm.supply - amount })).move
        rk userLst ra ul n).move rk ak { ra with amount := ra.amount - n } fa fee) :
    Redeemed cfg w w' p i s lm cal amount ra.amount := by
  have n1 : userLst ≠ rk := by
    intro e; have := la.res; rw [← e, hul.tok] at this; cases this; exact hul.notPool la.ra_owner
  have n2 : userLst ≠ ak := by
    intro e; have := la.acc; rw [← e, hul.tok] at this; cases this; exact hul.notFees la.fa_owner
  have n3 : userLp ≠ rk := by
    intro e; have := la.res; rw [← e, hlp.tok] at this; cases this; exact hlp.notPool la.ra_owner
  have n4 : userLp ≠ ak := by
    intro e; have := la.acc; rw [← e, hlp.tok] at this; cases this; exact hlp.notFees la.fa_owner
  have n5 : userLp ≠ userLst := by
    intro e; have := hul.tok; rw [← e, hlp.tok] at this; cases this; exact hne (hul.mint.symm.trans hlp.mint)
  have n6 : rk ≠ ak := by
    rintro rfl; exact cfg.pool_ne_fee (cfg.ata_inj la.res_key la.acc_key).1
  have hmints : w'.led.mints = upd w.led.mints p.lpTokenMint (some { lm with supply := lm.supply - amount }) := by rw [hled]; rfl
  have hprog : ∀ (k : Pubkey) (q : Mint), w.led.mints k = some q → ∃ q', w'.led.mints k = some q' ∧ q'.program = q.program := by
    intro k q hq
    rw [hmints]
    by_cases e : k = p.lpTokenMint
    · subst e; rw [hlm] at hq; cases hq; exact ⟨_, upd_same _ _ _, rfl⟩
    · exact ⟨q, by rw [upd_ne _ _ e]; exact hq, rfl⟩
  let l4 := (w.led.setTok userLp (some { lp with amount := lp.amount - amount })).setMint p.lpTokenMint (some { lm with supply := lm.supply - amount })
  have hl4 : ∀ k, k ≠ userLp → l4.tok k = w.led.tok k := fun k hk => upd_ne _ _ hk
  have hsame : SameAccounts w.led w'.led := by
    have s1 : SameAccounts w.led l4 := by
      intro k
      by_cases hk : k = userLp
      · subst hk; show (upd w.led.tok k _ k).map _ = _; rw [hlp.tok, upd_same]; rfl
      · rw [hl4 k hk]
    have s2 := move_same (n := n) (show l4.tok rk = some ra by rw [hl4 _ n3.symm]; exact la.res) (show l4.tok userLst = some ul by rw [hl4 _ n5.symm]; exact hul.tok) n1.symm
    have s3 := move_same (n := fee) (a := { ra with amount := ra.amount - n }) (b := fa) (l := l4.move rk userLst ra ul n) (src := rk) (dst := ak) (move_src n1.symm)
      (by rw [move_other n6.symm n2.symm, hl4 _ n4.symm]; exact la.acc) n6
    rw [hled]
    exact (s1.trans s2).trans s3
  refine ⟨⟨T, ra.amount - n - fee, by omega, ?_, hctl⟩, ?_, ?_, hmints⟩
  · obtain ⟨q, hq, hqp⟩ := hprog _ _ la.mint
    exact ⟨q, rk, _, hq, by rw [hqp]; exact la.res_key, by rw [hled]; exact move_src n6, rfl⟩
  · rintro j t x hj ht ⟨q, k, a, hq, hk, ha, hx⟩
    obtain ⟨q', hq', hqp⟩ := hprog _ _ hq
    obtain ⟨m', rk', ak', ra', fa', la'⟩ := hinv.accs t (List.mem_of_getElem? ht)
    obtain rfl : q = m' := Option.some.inj (hq.symm.trans la'.mint)
    obtain rfl : k = rk' := Option.some.inj (hk.symm.trans la'.res_key)
    obtain rfl : a = ra' := Option.some.inj (ha.symm.trans la'.res)
    have o1 : k ≠ rk := by
      rintro rfl
      obtain rfl : a = ra := Option.some.inj (ha.symm.trans la.res)
      exact hj (mint_index hinv.ctl.mints ht hs (la'.ra_mint.symm.trans la.ra_mint))
    have o2 : k ≠ ak := by rintro rfl; exact cfg.pool_ne_fee (cfg.ata_inj la'.res_key la.acc_key).1
    have o3 : k ≠ userLst := by rintro rfl; rw [hul.tok] at ha; cases ha; exact hul.notPool la'.ra_owner
    have o4 : k ≠ userLp := by rintro rfl; rw [hlp.tok] at ha; cases ha; exact hlp.notPool la'.ra_owner
    exact ⟨q', k, a, hq', by rw [hqp]; exact hk, by rw [hled, move_other o1 o2, move_other o1 o3]; exact (hl4 k o4).trans ha, hx⟩
  · intro k mint a hw
    have := hsame k
    rw [hw.tok] at this
    obtain ⟨a', ha', e⟩ := Option.map_eq_some_iff.1 this
    simp only [Prod.mk.injEq] at e
    obtain ⟨e1, e2, e3⟩ := e
    refine ⟨a', ⟨ha', ?_, e2.trans hw.mint, by rw [e3]; exact hw.notPool, by rw [e3]; exact hw.notFees⟩, e3⟩
    intro q' hq'
    rw [e1]
    rw [hmints] at hq'
    by_cases e : mint = p.lpTokenMint
    · subst e; simp only [upd, if_true, Option.some.injEq] at hq'; subst hq'; exact hw.program lm hlm
    · rw [upd_ne _ _ e] at hq'; exact hw.program _ hq'

theorem redemption_post (hreach : Reachable cfg L w) (hb : w.led.Backed)
    {p : PoolState} (hp : w.ctl.pool = some p) (hdis : p.isDisabled = 0) (hreb : p.isRebalancing = 0)
    {i : Nat} {s : LstState} (hs : w.ctl.lsts[i]? = some s) (hi : i < 2 ^ 32) (hne : s.mint ≠ p.lpTokenMint)
    {m lm : Mint} (hm : w.led.mints s.mint = some m) (hlm : w.led.mints p.lpTokenMint = some lm)
    {reserves : Nat} (hres : ReservesAre cfg w s reserves)
    {cal : AnyCalc} (hu : cal.Usable) {calcAccs priceAccs : List Acc} (hca : calcAccs.length < 255) (hpa : priceAccs.length < 255)
    (hserves : env.Serves L ⟨s.solValueCalculator, roMeta s.mint :: calcAccs⟩ cal)
    {cur total v after amount : Nat} {out : Range}
    (hcur : (cal.calculator L).lstToSol reserves = .ok (Range.single cur))
    (htotal : total = p.totalSolValue - s.solValue + cur) (hfits : total < U64)
    (hv : v = amount * total / lm.supply)
    (hprice : env.Quotes ⟨p.pricingProgram, roMeta s.mint :: priceAccs⟩ (.lpTokensToRedeem amount v) after) (hafter : after ≤ v)
    (hout : (cal.calculator L).solToLst after = .ok out) (hpos : 0 < out.min)
    {signer userLst userLp : Pubkey} (hamount : 0 < amount) (hh : Holder cfg w p signer userLst userLp s.mint amount)
    (henough : v ≤ cur) :
    ∃ ix, removeLiquidityByMint cfg p w.ctl.lsts ⟨signer, userLst, userLp, ⟨s.mint, m.program⟩, roMeta s.mint :: calcAccs, roMeta s.mint :: priceAccs⟩
        amount out.min = .ok ix ∧
      ∀ tx accs, SeenAs ix.accs accs → ∃ w', processInstruction cfg L env tx w ix.program accs ix.data = .ok w' ∧ Redeemed cfg w w' p i s lm cal amount reserves := by
  have hinv := hreach.inv
  obtain ⟨m', rk, ak, ra, fa, la⟩ := hinv.accs s (List.mem_of_getElem? hs)
  obtain rfl : m = m' := by have h := la.mint; rw [hm] at h; injection h with h
  obtain ⟨lm', hlm', hlmp, -, hlma, -⟩ := hinv.lp p hp
  rw [hlm] at hlm'; cases hlm'
  obtain ⟨m2, k2, a2, hm2, hk2, ha2, hn2⟩ := hres
  rw [hm] at hm2; cases hm2
  rw [la.res_key] at hk2; cases hk2
  rw [la.res] at ha2; cases ha2
  subst hn2
  obtain ⟨⟨ul, hul⟩, lp, hlp, hown, hen⟩ := hh
  have hfind : findLst s.mint w.ctl.lsts = .ok (i, s) := by
    refine findLst_ok.2 ⟨hs, rfl, ?_⟩
    intro n t hn ht e
    have hnd := hinv.ctl.mints
    have h1 : (w.ctl.lsts.map LstState.mint)[n]? = some s.mint := by simp [ht, e]
    have h2 : (w.ctl.lsts.map LstState.mint)[i]? = some s.mint := by simp [hs]
    have hlen : n < (w.ctl.lsts.map LstState.mint).length := (List.getElem?_eq_some_iff.1 h1).1
    have := (List.getElem?_inj hlen hnd).1 (h1.trans h2.symm)
    omega
  have hci := cal.is L hu
  have hans := cal.answers_of (.inl hcur)
  have hcurf : cur = cal.f ra.amount := by
    have := congrArg Range.min (hci.lstToSol hcur); simpa [Range.single] using this
  have hcu := AnyCalc.lstToSol_u64 hu (hinv.wf.tok_u64 _ _ la.res) hcur
  have hou : out = ⟨cal.rmin after, cal.rmax after⟩ := hci.solToLst hout
  have ho0 : 0 < after := by
    rcases Nat.eq_zero_or_pos after with h | h
    · rw [hou, h, AnyCalc.rmin_zero] at hpos; simp at hpos
    · exact h
  have hfbps := (hinv.ctl.fees p hp).2
  obtain ⟨aaf, haaf, hφ⟩ := bpsCeilFee_exists (amt := v - after) hfbps
  have hfit := AnyCalc.redeem_fits hu hans ho0 hafter hφ (hcurf ▸ henough)
  let k : LiqKeys := ⟨signer, s.mint, userLst, userLp, p.lpTokenMint, ak, m.program, cfg.splToken, cfg.poolState, cfg.lstStateList, rk⟩
  have hk : LiqKeysOk cfg w k i ⟨s.solValueCalculator, roMeta s.mint :: calcAccs⟩ ⟨p.pricingProgram, roMeta s.mint :: priceAccs⟩ p s :=
    { poolKey := rfl, listKey := rfl, lpProg := rfl, lpMint := rfl, pool := hp, notReb := hreb, notDis := hdis, entry := hs, mint := rfl
      prog := ⟨m, hm, rfl⟩, res := la.res_key, accum := la.acc_key, calcProg := rfl, pricingProg := rfl
      calcMetas := ⟨_, rfl⟩, pricingMetas := ⟨_, rfl⟩ }
  have hled : LiqLedger w.led k m lm ra fa ul lp :=
    { mint := hm, mprog := rfl, lpMint := hlm, lpProg := hlmp, lpAuth := hlma
      res := ⟨la.res, la.ra_prog, la.ra_mint⟩
      resOwner := la.ra_owner
      accum := ⟨la.acc, la.fa_prog, la.fa_mint⟩
      userLst := ⟨hul.tok, hul.program m hm, hul.mint⟩
      userLp := ⟨hlp.tok, (hlp.program lm hlm).trans hlmp, hlp.mint⟩
      resNe := by
        intro e
        have e : rk = ak := e
        subst e
        exact cfg.pool_ne_fee (cfg.ata_inj la.res_key la.acc_key).1
      userNe := by
        constructor
        · intro e
          have h := hul.tok
          have e : userLst = rk := e
          rw [e, la.res] at h; cases h
          exact hul.notPool la.ra_owner
        · intro e
          have h := hul.tok
          have e : userLst = ak := e
          rw [e, la.acc] at h; cases h
          exact hul.notFees la.fa_owner
      mintNe := hne }
  have hlpsup := hb.one _ _ _ hlp.tok (by rw [hlp.mint]; exact hlm)
  have hlu := hinv.wf.tok_u64 _ _ hlp.tok
  have room1 := hb.room hinv.wf hled.userNe.1 hled.userLst.tok hled.res.tok hled.userLst.mint hled.res.mint hled.mint
  have room2 := hb.room hinv.wf hled.resNe hled.res.tok hled.accum.tok hled.res.mint hled.accum.mint hled.mint
  have hsv : s.solValue ≤ p.totalSolValue := by
    rw [hinv.ctl.total p hp]
    exact le_sumSol (List.mem_of_getElem? hs)
  have hvv : calcLpTokensSolValue L ⟨lm.supply, p.totalSolValue - s.solValue + (Range.single cur).min⟩ amount = .ok v := by
    simp only [calcLpTokensSolValue, Range.single, ← htotal]
    by_cases h0 : total = 0
    · simp only [h0, true_or, if_true, pure_ok]; rw [hv, h0]; simp
    · rw [if_neg (by omega)]
      refine (floorApply_ok' (by omega)).2 ⟨by rw [hv], ?_⟩
      rw [← hv]; simp only [Range.single] at hcu; omega
  have hra := hinv.wf.tok_u64 _ _ la.res
  have hom : out.min = cal.rmin after := by rw [hou]
  rw [← hom] at hfit
  have hfee : calcRemoveLiquidityProtocolFees L v after out.min p.lpProtocolFeeBps = .ok (aaf.feeCharged * cal.rmin after / after) := by
    simp only [calcRemoveLiquidityProtocolFees, bind_ok]
    refine ⟨aaf, haaf, ?_⟩
    rw [← hom]
    exact (floorApply_ok' (by omega)).2 ⟨rfl, by omega⟩
  rw [← hom] at hfee
  generalize aaf.feeCharged * out.min / after = fee at hfit hfee
  refine ⟨⟨cfg.programId, k.metas ++ roMeta s.solValueCalculator :: calcAccs ++ roMeta p.pricingProgram :: priceAccs,
    overwrite (Ix.removeLiquidity ⟨0, i, amount, out.min⟩).encode (Ix.removeLiquidity ⟨calcAccs.length + 1, i, amount, out.min⟩).encode⟩, ?_, ?_⟩
  · simp only [removeLiquidityByMint, resolveLiq, bind_ok, Prod.exists, pure_ok, Prod.mk.injEq, poolReserves_ok, feeAccumulator_ok, removeLiquidityIx,
      indexToU32_ok, extendOne_ok]
    exact ⟨k, i, _, _, ⟨i, s, hfind, rk, la.res_key, ak, la.acc_key, rfl, rfl, rfl, rfl⟩, i, ⟨hi, rfl⟩, _, _, ⟨by simp; omega, rfl, rfl⟩,
      _, _, ⟨by simp; omega, rfl, rfl⟩, by simp⟩
  · intro tx accs hseen
    have hcuu : cur < U64 := by simpa [Range.single] using hcu
    have hlive := remove_post (accs := accs) (minOut := out.min) hk hled hinv.wf hu hserves hprice (by omega) hsv hcur (by simpa [Range.single, ← htotal] using hfits)
      hvv hafter (by omega) hout hfee (by omega) (Nat.le_refl _) hown hen (by omega) (by omega)
      (by omega) (by omega) (by simpa using hseen)
    have hdec : decodeIx (overwrite (Ix.removeLiquidity ⟨0, i, amount, out.min⟩).encode
        (Ix.removeLiquidity ⟨calcAccs.length + 1, i, amount, out.min⟩).encode) =
        .ok (.removeLiquidity ⟨calcAccs.length + 1, i, amount, out.min⟩) := by
      rw [overwrite_same (encode_length_remove _ _)]
      apply C38_roundtrip
      simp only [Ix.Wf]
      refine ⟨by omega, hi, ?_, ?_⟩ <;> unfold U64 at * <;> omega
    rw [processInstruction_of_decode L env tx w accs hdec]
    obtain ⟨w', h1, ⟨T, h2⟩, h3⟩ := hlive
    exact ⟨w', h1, redeemed_of hinv hs la hul hlp hlm hne h2 h3⟩

/-- C70: a redemption is accepted whenever the LST's reserves are worth the LP tokens' share. Let the pool be neither disabled nor rebalancing, the LST's
calculator answer as a usable stake pool does, with the reserves worth `cur` at the moment, and the pricing program answer `after ≤ v` for the `amount` of LP
tokens, whose share of the pool is worth `v`. If `v ≤ cur` and `after` is worth at least one base unit of the LST, the client library builds a redemption and the
program accepts it, with all of `after`'s worth (`out`) as the minimum to be paid. The protocol's part of the fee, taken from the same reserves, always
fits; the LST's input may be disabled. -/
theorem C70_redemption_accepted (hreach : Reachable cfg L w) (hb : w.led.Backed)
    {p : PoolState} (hp : w.ctl.pool = some p) (hdis : p.isDisabled = 0) (hreb : p.isRebalancing = 0)
    {i : Nat} {s : LstState} (hs : w.ctl.lsts[i]? = some s) (hi : i < 2 ^ 32) (hne : s.mint ≠ p.lpTokenMint)
    {m lm : Mint} (hm : w.led.mints s.mint = some m) (hlm : w.led.mints p.lpTokenMint = some lm)
    {reserves : Nat} (hres : ReservesAre cfg w s reserves)
    {cal : AnyCalc} (hu : cal.Usable) {calcAccs priceAccs : List Acc} (hca : calcAccs.length < 255) (hpa : priceAccs.length < 255)
    (hserves : env.Serves L ⟨s.solValueCalculator, roMeta s.mint :: calcAccs⟩ cal)
    {cur total v after amount : Nat} {out : Range}
    (hcur : (cal.calculator L).lstToSol reserves = .ok (Range.single cur))
    (htotal : total = p.totalSolValue - s.solValue + cur) (hfits : total < U64)
    (hv : v = amount * total / lm.supply)
    (hprice : env.Quotes ⟨p.pricingProgram, roMeta s.mint :: priceAccs⟩ (.lpTokensToRedeem amount v) after) (hafter : after ≤ v)
    (hout : (cal.calculator L).solToLst after = .ok out) (hpos : 0 < out.min)
    {signer userLst userLp : Pubkey} (hamount : 0 < amount) (hh : Holder cfg w p signer userLst userLp s.mint amount)
    (henough : v ≤ cur) :
    ∃ ix, removeLiquidityByMint cfg p w.ctl.lsts ⟨signer, userLst, userLp, ⟨s.mint, m.program⟩, roMeta s.mint :: calcAccs, roMeta s.mint :: priceAccs⟩
        amount out.min = .ok ix ∧
      ∀ tx accs, SeenAs ix.accs accs → ∃ w', processInstruction cfg L env tx w ix.program accs ix.data = .ok w' := by
  obtain ⟨ix, h1, h2⟩ := redemption_post hreach hb hp hdis hreb hs hi hne hm hlm hres hu hca hpa hserves hcur htotal hfits hv hprice hafter hout hpos hamount hh henough
  exact ⟨ix, h1, fun tx accs hseen => (h2 tx accs hseen).imp fun _ h => h.1⟩

/-! ### Some LST can always pay -/

theorem exists_large (ls : List LstState) (hne : ls ≠ []) : ∃ (i : Nat) (s : LstState), ls[i]? = some s ∧ sumSol ls ≤ ls.length * s.solValue := by
  by_contra hc
  have hlt : ∀ s ∈ ls, ls.length * s.solValue < sumSol ls := by
    intro s hs
    obtain ⟨i, hi, e⟩ := List.getElem_of_mem hs
    by_contra h
    exact hc ⟨i, s, by rw [List.getElem?_eq_getElem hi, e], by omega⟩
  have key : ∀ (xs : List LstState) (n T : Nat), (∀ s ∈ xs, n * s.solValue < T) → xs ≠ [] → n * sumSol xs < xs.length * T := by
    intro xs
    induction xs with
    | nil => intro n T _ h; exact absurd rfl h
    | cons x xs ih =>
      intro n T hx _
      have h1 := hx x (by simp)
      simp only [sumSol, List.map_cons, List.sum_cons, List.length_cons, Nat.mul_add, Nat.add_mul, Nat.one_mul]
      by_cases hxs : xs = []
      · subst hxs; simpa using h1
      · have h2 := ih n T (fun s hs => hx s (by simp [hs])) hxs
        simp only [sumSol] at h2
        omega
  have := key ls ls.length (sumSol ls) hlt hne
  omega

/-- C70: among the LSTs of a pool there is one whose recorded value covers an `n`-th of all LP tokens, `n` being the number of LSTs. -/
theorem C70_some_lst_covers (hreach : Reachable cfg L w) {p : PoolState} (hp : w.ctl.pool = some p) (hlst : w.ctl.lsts ≠ []) {lm : Mint}
    (_hlm : w.led.mints p.lpTokenMint = some lm) {amount : Nat} (hn : amount * w.ctl.lsts.length ≤ lm.supply) :
    ∃ (i : Nat) (s : LstState), w.ctl.lsts[i]? = some s ∧ amount * p.totalSolValue / lm.supply ≤ s.solValue := by
  obtain ⟨i, s, hs, hle⟩ := exists_large _ hlst
  refine ⟨i, s, hs, ?_⟩
  rw [hreach.inv.ctl.total p hp]
  rcases Nat.eq_zero_or_pos lm.supply with h0 | h0
  · rw [h0]; simp
  · rw [Nat.div_le_iff_le_mul_add_pred h0]
    have h1 : amount * sumSol w.ctl.lsts ≤ amount * (w.ctl.lsts.length * s.solValue) := Nat.mul_le_mul_left _ hle
    have h2 : amount * w.ctl.lsts.length * s.solValue ≤ lm.supply * s.solValue := Nat.mul_le_mul_right _ hn
    rw [Nat.mul_assoc] at h2
    omega

/-- The programs behind the LST `s` are working: its calculator, given the further accounts `calcAccs`, answers as a usable stake pool, by which the recorded value
of the LST is up to date, and the pricing program, given `priceAccs`, answers at most `v` for `amount` LP tokens worth `v`, at least one base unit of the LST
in value, for which `out` is paid. -/
structure Working (cfg : Cfg) (L : RatioLib) (env : Env cfg) (w : World) (p : PoolState) (s : LstState) (calcAccs priceAccs : List Acc) (amount v out : Nat) :
    Prop where
  calcCount : calcAccs.length < 255
  priceCount : priceAccs.length < 255
  answers : ∃ (cal : AnyCalc) (reserves after : Nat) (r : Range), cal.Usable ∧ env.Serves L ⟨s.solValueCalculator, roMeta s.mint :: calcAccs⟩ cal ∧
    ReservesAre cfg w s reserves ∧ (cal.calculator L).lstToSol reserves = .ok (Range.single s.solValue) ∧
    env.Quotes ⟨p.pricingProgram, roMeta s.mint :: priceAccs⟩ (.lpTokensToRedeem amount v) after ∧ after ≤ v ∧
    (cal.calculator L).solToLst after = .ok r ∧ r.min = out ∧ 0 < out

/-- C70: liquidity providers can leave. In a pool of `n` LSTs that is neither disabled nor rebalancing, whose recorded values are up to date and whose calculator
and pricing programs work, a holder of `amount` LP tokens, at most an `n`-th of all, can redeem them all in one instruction, for at least one of the LSTs. -/
theorem C70_leave (hreach : Reachable cfg L w) (hb : w.led.Backed)
    {p : PoolState} (hp : w.ctl.pool = some p) (hdis : p.isDisabled = 0) (hreb : p.isRebalancing = 0)
    (hlst : w.ctl.lsts ≠ []) (hlen : w.ctl.lsts.length ≤ 2 ^ 32) (hlpm : ∀ s ∈ w.ctl.lsts, s.mint ≠ p.lpTokenMint)
    {lm : Mint} (hlm : w.led.mints p.lpTokenMint = some lm)
    {amount : Nat} (hamount : 0 < amount) (hn : amount * w.ctl.lsts.length ≤ lm.supply)
    {calcAccs priceAccs : LstState → List Acc} {out : LstState → Nat}
    (hwork : ∀ s ∈ w.ctl.lsts, Working cfg L env w p s (calcAccs s) (priceAccs s) amount (amount * p.totalSolValue / lm.supply) (out s))
    {signer userLp : Pubkey} {userLst : LstState → Pubkey} (hh : ∀ s ∈ w.ctl.lsts, Holder cfg w p signer (userLst s) userLp s.mint amount) :
    ∃ s ∈ w.ctl.lsts, ∃ m ix, w.led.mints s.mint = some m ∧
      removeLiquidityByMint cfg p w.ctl.lsts ⟨signer, userLst s, userLp, ⟨s.mint, m.program⟩, roMeta s.mint :: calcAccs s, roMeta s.mint :: priceAccs s⟩
        amount (out s) = .ok ix ∧
      ∀ tx accs, SeenAs ix.accs accs → ∃ w', processInstruction cfg L env tx w ix.program accs ix.data = .ok w' := by
  obtain ⟨i, s, hs, hle⟩ := C70_some_lst_covers hreach hp hlst hlm hn
  have hmem := List.mem_of_getElem? hs
  obtain ⟨hca, hpa, cal, reserves, after, r, hu, hserves, hres, hcur, hprice, hafter, hout, hro, hpos⟩ := hwork s hmem
  obtain ⟨m, rk, ak, ra, fa, la⟩ := hreach.inv.accs s hmem
  have hsv : s.solValue ≤ p.totalSolValue := by rw [hreach.inv.ctl.total p hp]; exact le_sumSol hmem
  have hi : i < 2 ^ 32 := Nat.lt_of_lt_of_le (List.getElem?_eq_some_iff.1 hs).1 hlen
  obtain ⟨ix, hix, hacc⟩ := C70_redemption_accepted hreach hb hp hdis hreb hs hi (hlpm s hmem) la.mint hlm hres hu hca hpa hserves hcur (by omega)
    (hreach.inv.ctl.total_u64 p hp) rfl hprice hafter hout (by omega) hamount (hh s hmem) hle
  rw [hro] at hix
  exact ⟨s, hmem, m, ix, la.mint, hix, hacc⟩

end

namespace Ex

/-- A pool of two LSTs after a swap, a deposit and more (`st 7`): 30000 of the 60000 LP tokens, worth 30027, leave for the first LST, whose reserves are worth 36031. -/
theorem leave_facts : (st 7).ctl.pool.map (fun p => (p.totalSolValue, p.isDisabled, p.isRebalancing, p.lpTokenMint, p.pricingProgram)) = some (60055, 0, 0, 20, 7) ∧
    (st 7).ctl.lsts.map (fun s => (s.mint, s.solValue, s.solValueCalculator)) = [(21, 36031, 31), (22, 24024, 32)] ∧
    (st 7).led.mints 20 = some ⟨8, 60000, 9, some 1, some 1⟩ := by decide +kernel

theorem leave_res : (st 7).ctl.lsts.map (fun s => (cfg.ata cfg.poolState 8 s.mint s.poolReservesBump).bind fun k => ((st 7).led.tok k).map TokenAcc.amount) =
    [some 36031, some 16016] := by decide +kernel

theorem leave_mints : (st 7).led.mints 21 = some ⟨8, 1000000, 9, none, none⟩ ∧ (st 7).led.mints 22 = some ⟨8, 1000000, 9, none, none⟩ := by decide +kernel

theorem reservesAre {s : LstState} {m : Mint} {n : Nat} {w : World} (hm : w.led.mints s.mint = some m)
    (h : ((cfg.ata cfg.poolState m.program s.mint s.poolReservesBump).bind fun k => (w.led.tok k).map TokenAcc.amount) = some n) : ReservesAre cfg w s n := by
  simp only [Option.bind_eq_some_iff, Option.map_eq_some_iff] at h
  obtain ⟨k, hk, a, ha, rfl⟩ := h
  exact ⟨m, k, a, hm, hk, ha, rfl⟩

theorem servesA (ms : List Acc) : env.Serves .ex ⟨31, ms⟩ .wsol := by
  intro n w ms' _
  constructor
  · intro a r h; simp only [AnyCalc.calculator] at h; simp [env, Env.pure, calcF, h, Except.map]
  · intro a r h; simp only [AnyCalc.calculator] at h; simp [env, Env.pure, calcF, h, Except.map]

theorem servesB (ms : List Acc) : env.Serves .ex ⟨32, ms⟩ (.lido ⟨0, 2, 3⟩) := by
  intro n w ms' _
  constructor
  · intro a r h; simp only [AnyCalc.calculator] at h; simp [env, Env.pure, calcF, h, Except.map]
  · intro a r h; simp only [AnyCalc.calculator] at h; simp [env, Env.pure, calcF, h, Except.map]

theorem quotesR (p : Pubkey) (ms : List Acc) (a v : Nat) : env.Quotes ⟨p, ms⟩ (.lpTokensToRedeem a v) (v * 99 / 100) := by
  intro n w ms' _
  simp [env, Env.pure, priceF, Except.map]

example : ∃ s ∈ (st 7).ctl.lsts, ∃ m ix p, (st 7).led.mints s.mint = some m ∧ (st 7).ctl.pool = some p ∧
    removeLiquidityByMint cfg p (st 7).ctl.lsts ⟨40, if s.mint = 21 then 41 else 42, 43, ⟨s.mint, m.program⟩, [roMeta s.mint], [roMeta s.mint]⟩
        30000 (if s.mint = 21 then 29726 else 19817) = .ok ix ∧
      ∀ tx accs, SeenAs ix.accs accs → ∃ w', processInstruction cfg .ex env tx (st 7) ix.program accs ix.data = .ok w' := by
  obtain ⟨h1, h2, h3⟩ := leave_facts
  obtain ⟨m1, m2⟩ := leave_mints
  have hr := leave_res
  cases hp : (st 7).ctl.pool with
  | none => rw [hp] at h1; cases h1
  | some p =>
  rw [hp] at h1
  simp only [Option.map_some, Option.some.injEq, Prod.mk.injEq] at h1
  obtain ⟨e1, e2, e3, e4, e5⟩ := h1
  generalize hls : (st 7).ctl.lsts = ls at h2 hr
  match ls, h2, hr with
  | [a, b], h2, hr =>
    simp only [List.map_cons, List.map_nil, List.cons.injEq, Prod.mk.injEq, and_true] at h2 hr
    obtain ⟨⟨a1, a2, a3⟩, b1, b2, b3⟩ := h2
    have key := C70_leave (env := env) (calcAccs := fun _ => []) (priceAccs := fun _ => []) (signer := 40) (userLp := 43) (amount := 30000)
      (out := fun s => if s.mint = 21 then 29726 else 19817) (userLst := fun s => if s.mint = 21 then 41 else 42)
      (st_reachable 7) (st_backed 7 (by decide)) hp e2 e3 (by rw [hls]; simp) (by rw [hls]; simp)
      (by rw [hls]; simp [a1, b1, e4]) (by rw [e4]; exact h3) (by decide) (by rw [hls]; simp) (by
        rw [hls, e1]
        intro s hs
        simp only [List.mem_cons, List.not_mem_nil, or_false] at hs
        rcases hs with rfl | rfl
        · exact ⟨by simp, by simp, .wsol, 36031, 29726, ⟨29726, 29726⟩, True.intro, by rw [a3]; exact servesA _, reservesAre (by rw [a1]; exact m1) hr.1,
            by rw [a2]; rfl, quotesR _ _ _ _, by decide, rfl, by simp [a1], by simp [a1]⟩
        · exact ⟨by simp, by simp, .lido ⟨0, 2, 3⟩, 16016, 29726, ⟨19817, 19818⟩, ⟨by decide, by decide⟩, by rw [b3]; exact servesB _,
            reservesAre (by rw [b1]; exact m2) hr.2, by rw [b2]; rfl, quotesR _ _ _ _, by decide, rfl, by simp [b1], by simp [b1]⟩) (by
        rw [hls]
        intro s hs
        simp only [List.mem_cons, List.not_mem_nil, or_false] at hs
        rcases hs with rfl | rfl
        · exact ⟨⟨_, by simp only [a1]; exact wallet41⟩, _, by rw [e4]; exact wallet43, rfl, by decide⟩
        · exact ⟨⟨_, by simp only [b1]; exact wallet42⟩, _, by rw [e4]; exact wallet43, rfl, by decide⟩)
    rw [hls] at key
    obtain ⟨s, hs, m, ix, hm, hix, h⟩ := key
    exact ⟨s, hs, m, ix, p, hm, rfl, hix, h⟩

end Ex

end S
