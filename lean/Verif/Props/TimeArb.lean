import Verif.Props.FairValue
import Verif.Props.RedeemLater
/-!
C98: what time arbitrage can yield (docs/risks.md, "Swap Time Arb" and "LP Time Arb"). Someone swaps one LST for another (or deposits) just before the
rate of an LST rises, and swaps back (or redeems) afterwards. docs/risks.md says the fees must be enough to offset this; here is how much they must be.

* Swapping A for B at fees of `10000 - n₁` bp and later B for A at fees of `10000 - n₂` bp returns A's worth at most `n₁ · n₂ / 10⁸` of what was given,
  times the growth of the payout of B in between. There is no profit if the growth is at most `10⁸ / (n₁ · n₂)`.
* Depositing and later redeeming with a withdrawal fee of `f` bp returns at most `(10000 - f) / 10000` of what was deposited, times the growth of the
  pool's value per LP token in between.

Nothing is assumed about what happens in between, nor about the other LST's rate.
-/
set_option autoImplicit false
namespace S

/-! ### Specification -/

/-- The instruction swaps the LST at position `i` for the LST at position `j`. -/
def Ix.Swaps (ix : Ix) (i j : Nat) : Prop :=
  (∃ a, ix = .swapExactIn a ∧ a.srcLstIndex = i ∧ a.dstLstIndex = j) ∨ (∃ a, ix = .swapExactOut a ∧ a.srcLstIndex = i ∧ a.dstLstIndex = j)

/-- The signer gives `x` of the LST at `i` and receives `y` of the LST at `j`. -/
def Swapped (cfg : Cfg) (w w' : World) (accs : List Acc) (i j x y : Nat) : Prop :=
  ∃ fee p si so signer srcAcc dstAcc feeAcc srcRes dstRes,
    SwapMoves cfg w w' accs i j x y fee p si so signer srcAcc dstAcc feeAcc srcRes dstRes

/-- Of 10000 lamports swapped from mint `m` to mint `m'`, `n` remain after the fees. -/
def Remains (fc : FlatCfg) (F : FlatFee) (m m' : Pubkey) (n : Nat) : Prop :=
  ∃ fi fo, F.feesOf fc m = some fi ∧ F.feesOf fc m' = some fo ∧ ((n : Nat) : Int) = 10000 - (fi.inputFeeBps + fo.outputFeeBps)

/-- A deposit of `x` of the LST at `i`, for `lp` LP tokens. -/
def Deposited (cfg : Cfg) (w w' : World) (accs : List Acc) (i x lp : Nat) : Prop :=
  ∃ toRes toFee p s signer userLst userLp feeAcc res, LiqParties cfg w accs i p s signer userLst userLp feeAcc res ∧ toRes + toFee = x ∧
    ∀ k, bal w'.led k + only userLst.key x k = bal w.led k + only res.key toRes k + only feeAcc.key toFee k + only userLp.key lp k

/-- `T` is the pool's total once the LST at `i` is entered at what its stake pool pays out for the reserves. -/
def UpToDate (cfg : Cfg) (w : World) (i : Nat) (c : AnyCalc) (T : Nat) : Prop :=
  ∃ p s k, w.ctl.pool = some p ∧ w.ctl.lsts[i]? = some s ∧ IsReserves cfg w s k ∧ T + s.solValue = p.totalSolValue + c.payout (bal w.led k)

/-! ### Proofs -/

section
variable {sc : SysCfg} {L : RatioLib}
variable {s₀ : Sys sc} {h : List (SysTx sc)}

/-- C98: one swap, of either kind. -/
theorem C98_swap {e : SysEvent sc} {o : Outside sc} {accs : List Acc} {p : PoolState} {ix : Ix} {i j n : Nat} (he : e ∈ systemEvents L s₀ h)
    (hsw : ix.Swaps i j) (hix : e.IsIx o accs ix) (hq : o.other.Quiet)
    (hp : e.pre.world.ctl.pool = some p) (hpp : p.pricingProgram = sc.fc.programId) {si so : LstState}
    (hsi : e.pre.world.ctl.lsts[i]? = some si) (hso : e.pre.world.ctl.lsts[j]? = some so) {ci co : AnyCalc}
    (hci : sc.Backs o.chain si ci) (hco : sc.Backs o.chain so co) (hn : Remains sc.fc (e.pre.flat L) si.mint so.mint n) (h0 : 0 < n) :
    ∃ x y, Swapped sc.cfg e.pre.world e.post.world accs i j x y ∧ co.payout y * 10000 ≤ ci.payout x * n := by
  obtain ⟨fi, fo, hfi, hfo, hn⟩ := hn
  rcases hsw with ⟨a, rfl, rfl, rfl⟩ | ⟨a, rfl, rfl, rfl⟩
  · obtain ⟨fi', fo', n', out, fee, signer, srcAcc, dstAcc, feeAcc, srcRes, dstRes, h1, h2, h3, h4, h5, h6⟩ :=
      C74_swapExactIn he hix hq hp hpp hsi hso hci hco
    obtain rfl : fi = fi' := Option.some.inj (hfi.symm.trans h1)
    obtain rfl : fo = fo' := Option.some.inj (hfo.symm.trans h2)
    obtain rfl : n = n' := by omega
    refine ⟨a.amount, out, ⟨fee, p, si, so, signer, srcAcc, dstAcc, feeAcc, srcRes, dstRes, h6⟩, ?_⟩
    exact Nat.le_trans (Nat.mul_le_mul_right _ h4.1) (Nat.div_mul_le_self _ _)
  · obtain ⟨fi', fo', n', inp, fee, signer, srcAcc, dstAcc, feeAcc, srcRes, dstRes, h1, h2, h3, h4, h5, h6⟩ :=
      C74_swapExactOut he hix hq hp hpp hsi hso hci hco
    obtain rfl : fi = fi' := Option.some.inj (hfi.symm.trans h1)
    obtain rfl : fo = fo' := Option.some.inj (hfo.symm.trans h2)
    obtain rfl : n' = (n : Int) := by omega
    refine ⟨inp, a.amount, ⟨fee, p, si, so, signer, srcAcc, dstAcc, feeAcc, srcRes, dstRes, h6⟩, ?_⟩
    have h4 := (h4 (by omega)).1
    rw [Int.toNat_natCast] at h4
    have h7 : 10000 * (co.payout a.amount + 1) ≤ (10000 * (co.payout a.amount + 1) + n - 1) / n * n := by
      have := (cdiv_le_iff (a := 10000 * (co.payout a.amount + 1)) h0).1 (Nat.le_refl _)
      exact this
    have h8 := Nat.mul_le_mul_right n h4
    omega

/-- C98: a swap and a swap back, with anything in between. -/
theorem C98_swap_back {e₁ e₂ : SysEvent sc} {o₁ o₂ : Outside sc} {accs₁ accs₂ : List Acc} {p₁ p₂ : PoolState} {ix₁ ix₂ : Ix} {i₁ j₁ i₂ j₂ n₁ n₂ : Nat}
    (he₁ : e₁ ∈ systemEvents L s₀ h) (he₂ : e₂ ∈ systemEvents L s₀ h)
    (hsw₁ : ix₁.Swaps i₁ j₁) (hix₁ : e₁.IsIx o₁ accs₁ ix₁) (hq₁ : o₁.other.Quiet)
    (hsw₂ : ix₂.Swaps j₂ i₂) (hix₂ : e₂.IsIx o₂ accs₂ ix₂) (hq₂ : o₂.other.Quiet)
    (hp₁ : e₁.pre.world.ctl.pool = some p₁) (hpp₁ : p₁.pricingProgram = sc.fc.programId)
    (hp₂ : e₂.pre.world.ctl.pool = some p₂) (hpp₂ : p₂.pricingProgram = sc.fc.programId) {a₁ b₁ a₂ b₂ : LstState}
    (ha₁ : e₁.pre.world.ctl.lsts[i₁]? = some a₁) (hb₁ : e₁.pre.world.ctl.lsts[j₁]? = some b₁)
    (ha₂ : e₂.pre.world.ctl.lsts[i₂]? = some a₂) (hb₂ : e₂.pre.world.ctl.lsts[j₂]? = some b₂) {ca₁ cb₁ ca₂ cb₂ : AnyCalc}
    (hca₁ : sc.Backs o₁.chain a₁ ca₁) (hcb₁ : sc.Backs o₁.chain b₁ cb₁) (hca₂ : sc.Backs o₂.chain a₂ ca₂) (hcb₂ : sc.Backs o₂.chain b₂ cb₂)
    (hn₁ : Remains sc.fc (e₁.pre.flat L) a₁.mint b₁.mint n₁) (h₁ : 0 < n₁) (hn₂ : Remains sc.fc (e₂.pre.flat L) b₂.mint a₂.mint n₂) (h₂ : 0 < n₂) :
    ∃ x y y' z, Swapped sc.cfg e₁.pre.world e₁.post.world accs₁ i₁ j₁ x y ∧ Swapped sc.cfg e₂.pre.world e₂.post.world accs₂ j₂ i₂ y' z ∧
      ca₂.payout z * cb₁.payout y * 10000 ^ 2 ≤ ca₁.payout x * cb₂.payout y' * (n₁ * n₂) ∧
      ∀ r q, 0 < q → cb₂.payout y' * q ≤ cb₁.payout y * r → n₁ * n₂ * r ≤ 10000 ^ 2 * q → ca₂.payout z ≤ ca₁.payout x := by
  obtain ⟨x, y, s₁, k₁⟩ := C98_swap he₁ hsw₁ hix₁ hq₁ hp₁ hpp₁ ha₁ hb₁ hca₁ hcb₁ hn₁ h₁
  obtain ⟨y', z, s₂, k₂⟩ := C98_swap he₂ hsw₂ hix₂ hq₂ hp₂ hpp₂ hb₂ ha₂ hcb₂ hca₂ hn₂ h₂
  refine ⟨x, y, y', z, s₁, s₂, ?_, fun r q hq hg hf => ?_⟩
  · have := Nat.mul_le_mul k₂ k₁
    calc _ = ca₂.payout z * 10000 * (cb₁.payout y * 10000) := by ring
      _ ≤ _ := this
      _ = _ := by ring
  · refine Nat.le_of_mul_le_mul_right (c := 10000 ^ 2 * q) ?_ (by positivity)
    calc ca₂.payout z * (10000 ^ 2 * q) = ca₂.payout z * 10000 * (10000 * q) := by ring
      _ ≤ cb₂.payout y' * n₂ * (10000 * q) := Nat.mul_le_mul_right _ k₂
      _ = cb₂.payout y' * q * (n₂ * 10000) := by ring
      _ ≤ cb₁.payout y * r * (n₂ * 10000) := Nat.mul_le_mul_right _ hg
      _ = cb₁.payout y * 10000 * (n₂ * r) := by ring
      _ ≤ ca₁.payout x * n₁ * (n₂ * r) := Nat.mul_le_mul_right _ k₁
      _ = ca₁.payout x * (n₁ * n₂ * r) := by ring
      _ ≤ ca₁.payout x * (10000 ^ 2 * q) := Nat.mul_le_mul_left _ hf

/-- C98: a deposit and a redemption of at most the LP tokens minted for it, with anything in between. -/
theorem C98_lp {e₁ e₂ : SysEvent sc} {o₁ o₂ : Outside sc} {accs₁ accs₂ : List Acc} {p₁ p₂ : PoolState} {d : AddLiquidityArgs} {r : RemoveLiquidityArgs}
    (he₁ : e₁ ∈ systemEvents L s₀ h) (he₂ : e₂ ∈ systemEvents L s₀ h)
    (hix₁ : e₁.IsIx o₁ accs₁ (.addLiquidity d)) (hq₁ : o₁.other.Quiet) (hix₂ : e₂.IsIx o₂ accs₂ (.removeLiquidity r)) (hq₂ : o₂.other.Quiet)
    (hp₁ : e₁.pre.world.ctl.pool = some p₁) (hpp₁ : p₁.pricingProgram = sc.fc.programId)
    (hp₂ : e₂.pre.world.ctl.pool = some p₂) (hpp₂ : p₂.pricingProgram = sc.fc.programId) {a b : LstState}
    (ha : e₁.pre.world.ctl.lsts[d.lstIndex]? = some a) (hb : e₂.pre.world.ctl.lsts[r.lstIndex]? = some b) {ca cb : AnyCalc}
    (hca : sc.Backs o₁.chain a ca) (hcb : sc.Backs o₂.chain b cb) (hS : lpSupply e₁.pre.world ≠ 0) :
    ∃ lp z T₁ T₂ st, Deposited sc.cfg e₁.pre.world e₁.post.world accs₁ d.lstIndex d.lstAmount lp ∧
      Redeems sc.cfg e₂.pre.world e₂.post.world accs₂ r.lstIndex r.lpTokenAmount b.mint z ∧
      UpToDate sc.cfg e₁.pre.world d.lstIndex ca T₁ ∧ UpToDate sc.cfg e₂.pre.world r.lstIndex cb T₂ ∧ (e₂.pre.flat L).state = some st ∧
      (r.lpTokenAmount ≤ lp →
        cb.payout z * 10000 * (T₁ * lpSupply e₂.pre.world) ≤ ca.payout d.lstAmount * (10000 - st.lpWithdrawalFeeBps) * (T₂ * lpSupply e₁.pre.world) ∧
        (T₁ ≠ 0 → ∀ g q, 0 < q → T₂ * lpSupply e₁.pre.world * q ≤ T₁ * lpSupply e₂.pre.world * g →
          (10000 - st.lpWithdrawalFeeBps) * g ≤ 10000 * q → cb.payout z ≤ ca.payout d.lstAmount)) := by
  obtain ⟨T₁, toRes, toFee, lp, m₁, signer, userLst, userLp, feeAcc, res, hl₁, ht₁, hm₁, hlp, _, hsum, _, hmov₁⟩ :=
    C74_addLiquidity he₁ hix₁ hq₁ hp₁ hpp₁ ha hca
  obtain ⟨st, v, T₂, z, fee, m₂, signer', userLst', userLp', feeAcc', res', hl₂, hst, ht₂, hm₂, hv, hz, _, hmov₂⟩ :=
    C74_removeLiquidity he₂ hix₂ hq₂ hp₂ hpp₂ hb hcb
  have hs₁ : lpSupply e₁.pre.world = m₁.supply := by simp [lpSupply, hp₁, supplyOf, hm₁]
  have hs₂ : lpSupply e₂.pre.world = m₂.supply := by simp [lpSupply, hp₂, supplyOf, hm₂]
  obtain ⟨x₁, y₁, z₁, _⟩ := hl₁.derived
  obtain ⟨x₂, y₂, z₂, _⟩ := hl₂.derived
  refine ⟨lp, z, T₁, T₂, st, ⟨toRes, toFee, p₁, a, signer, userLst, userLp, feeAcc, res, hl₁, hsum, hmov₁⟩,
    ⟨fee, p₂, b, signer', userLst', userLp', feeAcc', res', hl₂, rfl, hmov₂⟩,
    ⟨p₁, a, res.key, hp₁, ha, ⟨x₁, y₁, z₁⟩, ht₁⟩, ⟨p₂, b, res'.key, hp₂, hb, ⟨x₂, y₂, z₂⟩, ht₂⟩, hst, fun hle => ?_⟩
  rw [hs₁] at hS ⊢; rw [hs₂]
  -- the LP tokens minted, at the price of the deposit, are worth at most the deposit
  have k₁ : lp * T₁ ≤ ca.payout d.lstAmount * m₁.supply := by
    by_cases h0 : T₁ = 0
    · simp [h0]
    · rw [hlp.2.2 hS h0]; exact Nat.div_mul_le_self _ _
  -- the value of the LP tokens redeemed
  have k₂ : v * m₂.supply ≤ r.lpTokenAmount * T₂ := by
    by_cases h0 : m₂.supply = 0 ∨ T₂ = 0
    · rw [hv.1 h0]; simp
    · rw [not_or] at h0; rw [hv.2 h0.1 h0.2]; exact Nat.div_mul_le_self _ _
  have k₃ : cb.payout z * 10000 ≤ v * (10000 - st.lpWithdrawalFeeBps) := by
    refine Nat.le_trans (Nat.mul_le_mul_right _ hz.1) ?_
    rw [Nat.mul_sub, Nat.sub_mul]
    have : v * st.lpWithdrawalFeeBps ≤ (v * st.lpWithdrawalFeeBps + 9999) / 10000 * 10000 := by omega
    omega
  have k : cb.payout z * 10000 * (T₁ * m₂.supply) ≤ ca.payout d.lstAmount * (10000 - st.lpWithdrawalFeeBps) * (T₂ * m₁.supply) := by
    calc cb.payout z * 10000 * (T₁ * m₂.supply) ≤ v * (10000 - st.lpWithdrawalFeeBps) * (T₁ * m₂.supply) := Nat.mul_le_mul_right _ k₃
      _ = v * m₂.supply * ((10000 - st.lpWithdrawalFeeBps) * T₁) := by ring
      _ ≤ lp * T₂ * ((10000 - st.lpWithdrawalFeeBps) * T₁) := Nat.mul_le_mul_right _ (Nat.le_trans k₂ (Nat.mul_le_mul_right _ hle))
      _ = lp * T₁ * ((10000 - st.lpWithdrawalFeeBps) * T₂) := by ring
      _ ≤ ca.payout d.lstAmount * m₁.supply * ((10000 - st.lpWithdrawalFeeBps) * T₂) := Nat.mul_le_mul_right _ k₁
      _ = _ := by ring
  refine ⟨k, fun hT g q hq hg hf => ?_⟩
  by_cases h0 : m₂.supply = 0
  · have : v = 0 := hv.1 (.inl h0)
    rw [this] at k₃; omega
  · refine Nat.le_of_mul_le_mul_right (c := 10000 * (T₁ * m₂.supply) * q) ?_ (by positivity)
    calc cb.payout z * (10000 * (T₁ * m₂.supply) * q) = cb.payout z * 10000 * (T₁ * m₂.supply) * q := by ring
      _ ≤ ca.payout d.lstAmount * (10000 - st.lpWithdrawalFeeBps) * (T₂ * m₁.supply) * q := Nat.mul_le_mul_right _ k
      _ = ca.payout d.lstAmount * (10000 - st.lpWithdrawalFeeBps) * (T₂ * m₁.supply * q) := by ring
      _ ≤ ca.payout d.lstAmount * (10000 - st.lpWithdrawalFeeBps) * (T₁ * m₂.supply * g) := Nat.mul_le_mul_left _ hg
      _ = ca.payout d.lstAmount * (T₁ * m₂.supply) * ((10000 - st.lpWithdrawalFeeBps) * g) := by ring
      _ ≤ ca.payout d.lstAmount * (T₁ * m₂.supply) * (10000 * q) := Nat.mul_le_mul_left _ hf
      _ = _ := by ring

end

end S

namespace S.Ex

def sysSwapBack : List Acc := swapBA.take 12 ++ lidoAccs ++ [ro 31] ++ [ro 7, ro 1022, ro 1021]

/-- The example's history, continued with a swap back. -/
def arbHist : List (SysTx sysc) := sysHist ++ [[.controller (outside 0 5000) sysSwapBack (Ix.swapExactIn ⟨5, 1, 1, 0, 10, 1996⟩).encode]]

theorem arb_fees : Remains fc ((sysAt 17).flat .ex) 21 22 9980 ∧ Remains fc ((sysAt 20).flat .ex) 22 21 9940 := by
  refine ⟨⟨⟨254, 30, 20⟩, ⟨254, 40, -10⟩, by decide +kernel, by decide +kernel, by decide⟩,
    ⟨⟨254, 40, -10⟩, ⟨254, 30, 20⟩, by decide +kernel, by decide +kernel, by decide⟩⟩

theorem arb_entries : (sysAt 20).world.ctl.lsts = [⟨0, 255, 255, 36008, 21, 31⟩, ⟨0, 255, 255, 14029, 22, 32⟩] ∧
    (sysAt 20).world.ctl.pool.map (·.pricingProgram) = some 7 := by decide +kernel

-- Swapping 3000 lamports' worth for Lido's tokens and those back: the LST's own rates unchanged, the fees leave a loss.
example : ∃ e₁ ∈ systemEvents .ex sys0 arbHist, ∃ e₂ ∈ systemEvents .ex sys0 arbHist, ∃ x y y' z,
    Swapped cfg e₁.pre.world e₁.post.world sysSwap 0 1 x y ∧ Swapped cfg e₂.pre.world e₂.post.world sysSwapBack 1 0 y' z ∧
    ∀ r q, 0 < q → (AnyCalc.lido ⟨0, 2, 3⟩).payout y' * q ≤ (AnyCalc.lido ⟨0, 2, 3⟩).payout y * r → 9980 * 9940 * r ≤ 10000 ^ 2 * q → z ≤ x := by
  obtain ⟨e₁, hpre₁, _, hix₁, hev₁⟩ := sysEv (n := 17) (o := outside 0 5000) (accs := sysSwap) (ix := .swapExactIn ⟨1, 5, 0, 1, 10, 3000⟩) rfl
    (by decide +kernel) (by decide +kernel)
  obtain ⟨e₂, hpre₂, hact₂, hpost₂, hev₂⟩ := systemEvents_single (L := .ex) (s := sys0) (h := sysHist) (o := outside 0 5000) (accs := sysSwapBack)
    (data := (Ix.swapExactIn ⟨5, 1, 1, 0, 10, 1996⟩).encode) (by decide +kernel)
  have hd₂ : decodeIx (Ix.swapExactIn ⟨5, 1, 1, 0, 10, 1996⟩).encode = .ok (Ix.swapExactIn ⟨5, 1, 1, 0, 10, 1996⟩) := by decide +kernel
  have hix₂ : e₂.IsIx (outside 0 5000) sysSwapBack (.swapExactIn ⟨5, 1, 1, 0, 10, 1996⟩) := ⟨_, hact₂, hd₂⟩
  have he₁ : e₁ ∈ systemEvents .ex sys0 arbHist := by
    have : arbHist = sysHist.take 18 ++ (sysHist.drop 18 ++ [[.controller (outside 0 5000) sysSwapBack (Ix.swapExactIn ⟨5, 1, 1, 0, 10, 1996⟩).encode]]) := rfl
    rw [this, systemEvents_append, hev₁]; simp
  have he₂ : e₂ ∈ systemEvents .ex sys0 arbHist := by rw [arbHist, hev₂]; simp
  have hpre₂ : e₂.pre = sysAt 20 := hpre₂
  obtain ⟨p₁, hp₁, hpp₁⟩ := of_map sys_lists.1
  obtain ⟨p₂, hp₂, hpp₂⟩ := of_map arb_entries.2
  have hA₁ : (sysAt 17).world.ctl.lsts[0]? = some ⟨0, 255, 255, 30000, 21, 31⟩ := by decide +kernel
  have hB₁ : (sysAt 17).world.ctl.lsts[1]? = some ⟨0, 255, 255, 30000, 22, 32⟩ := by decide +kernel
  have hA₂ : (sysAt 20).world.ctl.lsts[0]? = some ⟨0, 255, 255, 36008, 21, 31⟩ := by rw [arb_entries.1]; rfl
  have hB₂ : (sysAt 20).world.ctl.lsts[1]? = some ⟨0, 255, 255, 14029, 22, 32⟩ := by rw [arb_entries.1]; rfl
  obtain ⟨hn₁, hn₂⟩ := arb_fees
  rw [← hpre₁] at hp₁ hA₁ hB₁ hn₁
  rw [← hpre₂] at hp₂ hA₂ hB₂ hn₂
  obtain ⟨x, y, y', z, s₁, s₂, _, hk⟩ := C98_swap_back he₁ he₂ (.inl ⟨_, rfl, rfl, rfl⟩) hix₁ Env.pure_quiet (.inl ⟨_, rfl, rfl, rfl⟩) hix₂ Env.pure_quiet
    hp₁ hpp₁ hp₂ hpp₂ hA₁ hB₁ hA₂ hB₂ (sys_backs (.inr ⟨rfl, rfl⟩)) (sys_backs (.inl ⟨rfl, rfl⟩)) (sys_backs (.inr ⟨rfl, rfl⟩)) (sys_backs (.inl ⟨rfl, rfl⟩))
    hn₁ (by decide) hn₂ (by decide)
  exact ⟨e₁, he₁, e₂, he₂, x, y, y', z, s₁, s₂, hk⟩
-- 3000 lamports buy 1996 tokens, which come back as 2976 lamports; fees of 20 and 60 bp offset a rise of Lido's rate by 80 bp, but not by 81
example : bal (sysAt 18).world.led 42 = bal (sysAt 17).world.led 42 + 1996 ∧
    bal (runSystem .ex sys0 arbHist).world.led 41 = bal (sysAt 20).world.led 41 + 2976 := by decide +kernel
example : 9980 * 9940 * 10080 ≤ 10000 ^ 2 * 10000 ∧ ¬ 9980 * 9940 * 10081 ≤ 10000 ^ 2 * 10000 := by decide
-- the example of docs/risks.md: a rise of 4 bp is offset by fees of 2 bp each way
example : 9998 * 9998 * 10004 ≤ 10000 ^ 2 * 10000 := by decide

-- The deposit of 20000 of Lido's tokens (transaction 16) and the redemption of 10000 LP tokens (transaction 20).
example : ∃ e₁ ∈ systemEvents .ex sys0 (sysHist.take 20), ∃ e₂ ∈ systemEvents .ex sys0 (sysHist.take 20), ∃ lp z,
    Deposited cfg e₁.pre.world e₁.post.world sysLiqB 1 20000 lp ∧ Redeems cfg e₂.pre.world e₂.post.world sysLiqB 1 10000 22 z := by
  obtain ⟨e₁, hpre₁, _, hix₁, hev₁⟩ := sysEv (n := 15) (o := outside 0 5000) (accs := sysLiqB) (ix := .addLiquidity ⟨5, 1, 20000, 1⟩) rfl
    (by decide +kernel) (by decide +kernel)
  obtain ⟨e₂, hpre₂, _, hix₂, hev₂⟩ := sysEv (n := 19) (o := outside 0 5000) (accs := sysLiqB) (ix := .removeLiquidity ⟨5, 1, 10000, 1⟩) rfl
    (by decide +kernel) (by decide +kernel)
  have he₁ : e₁ ∈ systemEvents .ex sys0 (sysHist.take 20) := by
    have : sysHist.take 20 = sysHist.take 16 ++ (sysHist.take 20).drop 16 := rfl
    rw [this, systemEvents_append, hev₁]; simp
  have he₂ : e₂ ∈ systemEvents .ex sys0 (sysHist.take 20) := by rw [hev₂]; simp
  obtain ⟨p₁, hp₁, hpp₁⟩ := sys_prog sys_lists.2.2.1
  obtain ⟨p₂, hp₂, hpp₂⟩ := sys_prog sys_lists.2.2.2.1
  obtain ⟨_, s1, _, h1, _, e1⟩ := sys_entry (n := 15) (by simp) (by simp)
  obtain ⟨_, s2, _, h2, _, e2⟩ := sys_entry (n := 19) (by simp) (by simp)
  have hS : lpSupply (sysAt 15).world ≠ 0 := by decide +kernel
  rw [← hpre₁] at hp₁ h1 hS
  rw [← hpre₂] at hp₂ h2
  obtain ⟨lp, z, _, _, _, k₁, k₂, _⟩ := C98_lp he₁ he₂ hix₁ Env.pure_quiet hix₂ Env.pure_quiet hp₁ hpp₁ hp₂ hpp₂ h1 h2
    (sys_backs (slot := 5000) (.inl e1)) (sys_backs (slot := 5000) (.inl e2)) hS
  rw [e2.1] at k₂
  exact ⟨e₁, he₁, e₂, he₂, lp, z, k₁, k₂⟩

end S.Ex
