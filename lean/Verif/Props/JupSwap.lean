import Verif.Props.JupCache
import Verif.Proofs.Client
/-
C49: the cached pricing program is the pool's. C50: the two ways the library describes a swap agree.
-/
set_option autoImplicit false
namespace S

/-! ### Specification -/

/-- The cached pool state, if any, is readable, and a pricing program is cached only if that pool state names the flat-fee program. -/
structure SPool.PricingOk (J : JupCfg) (S : SPool) : Prop where
  readable : ∀ b, S.poolState = some b → ∃ p, b.pool = .ok p
  named : ∀ pp, S.pricing = some pp → ∃ p, S.pool = .ok p ∧ p.pricingProgram = J.fc.programId

/-- The controller instruction that a `Swap` description (account counts and list indices) stands for, with the amounts of the request. -/
def JupSwap.ix (p : SwapParams) (exactOut : Bool) : JupSwap → Ix
  | .sanctumS ns nd i j =>
    if exactOut then .swapExactOut ⟨ns, nd, i, j, p.inAmount, p.outAmount⟩ else .swapExactIn ⟨ns, nd, i, j, p.outAmount, p.inAmount⟩
  | .addLiquidity n i => .addLiquidity ⟨n, i, p.inAmount, p.outAmount⟩
  | .removeLiquidity n i => .removeLiquidity ⟨n, i, p.inAmount, p.outAmount⟩

/-- A trade between two LSTs, not a deposit or a redemption. -/
def JupSwap.isSwap : JupSwap → Bool
  | .sanctumS .. => true
  | _ => false

/-! ### C49 -/

theorem SPool.PricingOk.keeps {J : JupCfg} {S T : SPool} (h : S.PricingOk J) (h1 : T.poolState = S.poolState)
    (h2 : T.pricing.isSome → S.pricing.isSome) : T.PricingOk J := by
  refine ⟨fun b hb => h.readable b (h1 ▸ hb), fun pp hpp => ?_⟩
  have := h2 (by rw [hpp]; rfl)
  obtain ⟨pp', hp'⟩ := Option.isSome_iff_exists.1 this
  obtain ⟨p, hp, hq⟩ := h.named pp' hp'
  exact ⟨p, by rw [← hp]; unfold SPool.pool; rw [h1], hq⟩

theorem updatePool_pricing {J : JupCfg} {S : SPool} (m : AccMap) (h : S.PricingOk J) : (S.updatePool J m).1.PricingOk J := by
  unfold SPool.updatePool
  split
  · exact h
  · rename_i b _
    split
    · exact h
    · rename_i lsts _
      split
      · exact h
      · rename_i new hnew
        have hpool : ∀ T : SPool, T.poolState = some b → T.pool = .ok new := by
          intro T hT; unfold SPool.pool; rw [hT]; exact hnew
        split
        · rename_i hre
          split
          · refine ⟨fun b' hb' => ?_, fun pp hpp => ?_⟩
            · injection hb' with hb'; subst hb'; exact ⟨new, hnew⟩
            · cases hpp
          · rename_i pp0 hpp0
            refine ⟨fun b' hb' => ?_, fun pp hpp => ⟨new, hpool _ rfl, ?_⟩⟩
            · injection hb' with hb'; subst hb'; exact ⟨new, hnew⟩
            · simp only [tryPricing, bind_ok, require_ok, exists_const] at hpp0
              exact hpp0.1
        · rename_i hre
          refine ⟨fun b' hb' => ?_, fun pp hpp => ⟨new, hpool _ rfl, ?_⟩⟩
          · injection hb' with hb'; subst hb'; exact ⟨new, hnew⟩
          · have hpp : S.pricing = some pp := hpp
            obtain ⟨p, hp, hq⟩ := h.named pp hpp
            simp only [SPool.reinit, hpp, hp, Option.isNone_some, Bool.false_or, decide_not, Bool.not_eq_true', decide_eq_false_iff_not,
              Decidable.not_not] at hre
            rw [← hre]; exact hq

theorem updatePricing_pricing {J : JupCfg} {S : SPool} (m : AccMap) (h : S.PricingOk J) : (S.updatePricing J m).1.PricingOk J := by
  unfold SPool.updatePricing
  split
  · exact h
  · rename_i pp hpp
    exact h.keeps rfl fun _ => by rw [hpp]; rfl

theorem updateSupply_pricing {J : JupCfg} {S : SPool} (m : AccMap) (h : S.PricingOk J) : (S.updateSupply J m).1.PricingOk J := by
  unfold SPool.updateSupply
  repeat' first | exact h | exact h.keeps rfl id | split

theorem updateList_pricing {J : JupCfg} {S : SPool} (m : AccMap) (h : S.PricingOk J) : (S.updateList J m).1.PricingOk J := by
  unfold SPool.updateList
  repeat' first | exact h | exact h.keeps rfl id | split

theorem JupOp.run_pricing {J : JupCfg} {S : SPool} (o : JupOp) (h : S.PricingOk J) : (o.run J S).1.PricingOk J := by
  cases o with
  | full m =>
    exact updateSupply_pricing _ (updatePool_pricing _ (updateList_pricing _ (updatePricing_pricing _ (h.keeps rfl id))))
  | data m => exact h.keeps rfl id
  | pricing m => exact updatePricing_pricing _ h
  | list m => exact updateList_pricing _ h
  | pool m => exact updatePool_pricing _ h
  | supply m => exact updateSupply_pricing _ h
  | epoch e => exact h.keeps rfl id

theorem JupInit.pricing {J : JupCfg} {list : List SanctumLst} {S : SPool} (h : JupInit J list S) : S.PricingOk J := by
  have hl : ∀ {e b S}, SPool.fromList J list e b = .ok S → S.PricingOk J := by
    intro e b S h
    simp only [SPool.fromList, bind_ok, pure_ok] at h
    obtain ⟨_, _, rfl⟩ := h
    constructor
    · intro b h; cases h
    · intro pp h; cases h
  cases h with
  | list h => exact hl h
  | init h =>
    simp only [SPool.fromInit, bind_ok, pure_ok] at h
    obtain ⟨_, _, p, hp, pp, hpp, S', hS, rfl⟩ := h
    refine ⟨fun b' hb' => ?_, fun pp' hpp' => ⟨p, ?_, ?_⟩⟩
    · injection hb' with hb'; subst hb'; exact ⟨p, hp⟩
    · unfold SPool.pool; exact hp
    · simp only [tryPricing, bind_ok, require_ok, exists_const] at hpp
      exact hpp.1
  | keyed h =>
    simp only [SPool.fromKeyed, bind_ok, require_ok, exists_const] at h
    exact hl h.2

/-- C49. However the cache was made and updated, a pricing program is cached only while the cached pool state is readable and names that
program, so no quote is ever priced by a program the pool no longer (or does not yet) use; the cached pool state is always readable. -/
theorem C49_pricing {J : JupCfg} {list : List SanctumLst} {S : SPool} (h : JupInit J list S) (ops : List JupOp) :
    (S.after J ops).PricingOk J := by
  replace h := h.pricing
  unfold SPool.after
  induction ops generalizing S with
  | nil => exact h
  | cons o ops ih => exact ih (o.run_pricing h)

/-! ### C50 -/

theorem extendOne_cons {x : Acc} {a m r : List Acc} {prog : Pubkey} {n : Nat} :
    extendOne (x :: a) m prog = .ok (r, n) ↔ ∃ r', r = x :: r' ∧ extendOne a m prog = .ok (r', n) := by
  simp only [extendOne, bind_ok, pure_ok, Prod.mk.injEq]
  constructor
  · rintro ⟨k, hk, rfl, rfl⟩; exact ⟨_, rfl, k, hk, rfl, rfl⟩
  · rintro ⟨r', rfl, k, hk, rfl, rfl⟩; exact ⟨k, hk, rfl, rfl⟩

theorem extendSwap_cons {x : Acc} {a m r : List Acc} {prog : Pubkey} {n : Nat} :
    extendSwap (x :: a) m prog = .ok (r, n) ↔ ∃ r', r = x :: r' ∧ extendSwap a m prog = .ok (r', n) := by
  simp only [extendSwap, bind_ok, pure_ok, Prod.mk.injEq]
  constructor
  · rintro ⟨u, hu, k, hk, rfl, rfl⟩; exact ⟨_, rfl, u, hu, k, hk, rfl, rfl⟩
  · rintro ⟨r', rfl, u, hu, k, hk, rfl, rfl⟩; exact ⟨u, hu, k, hk, rfl, rfl⟩

theorem extendSrcDst_cons {x : Acc} {a r : List Acc} {c d : Callee} {n m : Nat} :
    extendSrcDst (x :: a) c d = .ok (r, n, m) ↔ ∃ r', r = x :: r' ∧ extendSrcDst a c d = .ok (r', n, m) := by
  simp only [extendSrcDst, bind_ok, pure_ok, Prod.exists, Prod.mk.injEq, extendOne_cons]
  constructor
  · rintro ⟨r1, n1, ⟨r1', rfl, h1⟩, r2, n2, h2, rfl, rfl, rfl⟩
    obtain ⟨r2', e2, h2'⟩ := extendOne_cons.1 h2
    exact ⟨_, e2, _, _, h1, _, _, h2', rfl, rfl, rfl⟩
  · rintro ⟨r', rfl, r1, n1, h1, r2, n2, h2, rfl, rfl, rfl⟩
    exact ⟨_, _, ⟨_, rfl, h1⟩, _, _, extendOne_cons.2 ⟨_, rfl, h2⟩, rfl, rfl, rfl⟩

theorem overwrite_eq {a b : List UInt8} (h : a.length = b.length) : overwrite a b = b := by
  simp [overwrite, ← h]

theorem swapIx'_iff {J : JupCfg} {S : SPool} (hS : S.PricingOk J) (p : SwapParams) (eo : Bool) (ix : TopIx) :
    S.swapIx' J p eo = .ok ix ↔ ∃ sw accs, S.swapMetas J p = .ok (sw, roMeta J.cfg.programId :: accs) ∧
      ix = ⟨J.cfg.programId, accs, (sw.ix p eo).encode⟩ := by
  constructor
  · intro h
    simp only [SPool.swapIx', bind_ok] at h
    obtain ⟨pool, hpool, r, hr, lsts, hl, h⟩ := h
    have hpr : pool.pricingProgram = J.fc.programId := by
      simp only [SPool.swapRequest, bind_ok, okOr_ok, Prod.exists] at hr
      obtain ⟨_, _, _, _, _, _, pp, hpp, _⟩ := hr
      obtain ⟨p', hp', hq⟩ := hS.named pp hpp
      rw [hpool] at hp'; injection hp' with hp'; subst hp'; exact hq
    rw [hpr] at hr
    cases eo with
    | true =>
      simp only [if_true, swapExactOutByMint, swapExactOutIx, bind_ok, pure_ok, Prod.exists] at h
      obtain ⟨k, f, hres, i, hi, j, hj, a1, n, m, h1, a2, n2, h2, rfl⟩ := h
      refine ⟨.sanctumS n m i j, a2, ?_, ?_⟩
      · simp only [SPool.swapMetas, bind_ok, pure_ok, Prod.exists]
        exact ⟨r, hr, lsts, hl, k, f, hres, _, n, m, extendSrcDst_cons.2 ⟨a1, rfl, h1⟩, _, n2, extendSwap_cons.2 ⟨a2, rfl, h2⟩, i, hi, j, hj, rfl⟩
      · simp only [JupSwap.ix, if_true]
        rw [overwrite_eq (encode_length_swapOut _ _)]
    | false =>
      simp only [Bool.false_eq_true, if_false, swapExactInByMint, swapExactInIx, bind_ok, pure_ok, Prod.exists] at h
      obtain ⟨k, f, hres, i, hi, j, hj, a1, n, m, h1, a2, n2, h2, rfl⟩ := h
      refine ⟨.sanctumS n m i j, a2, ?_, ?_⟩
      · simp only [SPool.swapMetas, bind_ok, pure_ok, Prod.exists]
        exact ⟨r, hr, lsts, hl, k, f, hres, _, n, m, extendSrcDst_cons.2 ⟨a1, rfl, h1⟩, _, n2, extendSwap_cons.2 ⟨a2, rfl, h2⟩, i, hi, j, hj, rfl⟩
      · simp only [JupSwap.ix, Bool.false_eq_true, if_false]
        rw [overwrite_eq (encode_length_swapIn _ _)]
  · rintro ⟨sw, accs, h, rfl⟩
    simp only [SPool.swapMetas, bind_ok, pure_ok, Prod.exists, Prod.mk.injEq] at h
    obtain ⟨r, hr, lsts, hl, k, f, hres, a1, n, m, h1, a2, n2, h2, i, hi, j, hj, rfl, h3⟩ := h
    obtain ⟨a1', e1, h1'⟩ := extendSrcDst_cons.1 h1
    subst e1
    clear h1
    rename' h1' => h1
    obtain ⟨a2', e2, h2'⟩ := extendSwap_cons.1 h2
    subst e2
    clear h2
    rename' h2' => h2
    injection h3 with _ h3; subst h3
    have hr0 := hr
    simp only [SPool.swapRequest, bind_ok, okOr_ok, Prod.exists] at hr0
    obtain ⟨_, _, _, _, _, _, pp, hpp, _⟩ := hr0
    obtain ⟨pool, hpool, hq⟩ := hS.named pp hpp
    simp only [SPool.swapIx', bind_ok]
    refine ⟨pool, hpool, r, by rw [hq]; exact hr, lsts, hl, ?_⟩
    cases eo with
    | true =>
      simp only [if_true, swapExactOutByMint, swapExactOutIx, bind_ok, pure_ok, Prod.exists]
      refine ⟨k, f, hres, i, hi, j, hj, a1', n, m, h1, a2', n2, h2, ?_⟩
      rw [overwrite_eq (encode_length_swapOut _ _)]; rfl
    | false =>
      simp only [Bool.false_eq_true, if_false, swapExactInByMint, swapExactInIx, bind_ok, pure_ok, Prod.exists]
      refine ⟨k, f, hres, i, hi, j, hj, a1', n, m, h1, a2', n2, h2, ?_⟩
      rw [overwrite_eq (encode_length_swapIn _ _)]; rfl

theorem liqIx_iff {J : JupCfg} {S : SPool} (p : SwapParams) (ix : TopIx) (remove : Bool) :
    (if remove then S.removeIx J p else S.addIx J p) = .ok ix ↔
      ∃ sw accs, S.liqMetas J p remove = .ok (sw, roMeta J.cfg.programId :: accs) ∧
        ix = ⟨J.cfg.programId, accs, (sw.ix p false).encode⟩ := by
  cases remove with
  | true =>
    simp only [if_true, SPool.removeIx, SPool.liqMetas, SPool.liqRequest, bind_ok, pure_ok, okOr_ok, Prod.exists, removeLiquidityByMint,
      removeLiquidityIx, Prod.mk.injEq, flatRedeemAccounts]
    constructor
    · rintro ⟨r, ⟨s, d, hf, pp, hpp, rfl⟩, pool, hpool, lsts, hl, k, i, c, pr, hres, i', hi, a1, n, h1, a2, n2, h2, rfl⟩
      refine ⟨.removeLiquidity n i', a2, ⟨_, ⟨s, d, hf, pp, hpp, rfl⟩, pool, hpool, lsts, hl, k, i, c, pr, hres, _, n,
        extendOne_cons.2 ⟨a1, rfl, h1⟩, _, n2, extendOne_cons.2 ⟨a2, rfl, ?_⟩, i', hi, rfl, rfl⟩, ?_⟩
      · simpa only [extendOne, List.length_cons, List.drop_succ_cons, List.drop_zero] using h2
      · rw [overwrite_eq (encode_length_remove _ _)]; rfl
    · rintro ⟨sw, accs, ⟨r, ⟨s, d, hf, pp, hpp, rfl⟩, pool, hpool, lsts, hl, k, i, c, pr, hres, a1, n, h1, a2, n2, h2, i', hi, rfl, h3⟩, rfl⟩
      obtain ⟨b1, e1, g1⟩ := extendOne_cons.1 h1
      subst e1
      obtain ⟨b2, e2, g2⟩ := extendOne_cons.1 h2
      rw [e2] at h3; injection h3 with _ h3; subst h3
      refine ⟨_, ⟨s, d, hf, pp, hpp, rfl⟩, pool, hpool, lsts, hl, k, i, c, pr, hres, i', hi, b1, n, g1, b2, n2, ?_, ?_⟩
      · simpa only [extendOne, List.length_cons, List.drop_succ_cons, List.drop_zero] using g2
      · rw [overwrite_eq (encode_length_remove _ _)]; rfl
  | false =>
    simp only [Bool.false_eq_true, if_false, SPool.addIx, SPool.liqMetas, SPool.liqRequest, bind_ok, pure_ok, okOr_ok, Prod.exists,
      addLiquidityByMint, addLiquidityIx, Prod.mk.injEq]
    constructor
    · rintro ⟨r, ⟨s, d, hf, pp, hpp, rfl⟩, pool, hpool, lsts, hl, k, i, c, pr, hres, i', hi, a1, n, h1, a2, n2, h2, rfl⟩
      refine ⟨.addLiquidity n i', a2, ⟨_, ⟨s, d, hf, pp, hpp, rfl⟩, pool, hpool, lsts, hl, k, i, c, pr, hres, _, n,
        extendOne_cons.2 ⟨a1, rfl, h1⟩, _, n2, extendOne_cons.2 ⟨a2, rfl, h2⟩, i', hi, rfl, rfl⟩, ?_⟩
      rw [overwrite_eq (encode_length_add _ _)]; rfl
    · rintro ⟨sw, accs, ⟨r, ⟨s, d, hf, pp, hpp, rfl⟩, pool, hpool, lsts, hl, k, i, c, pr, hres, a1, n, h1, a2, n2, h2, i', hi, rfl, h3⟩, rfl⟩
      obtain ⟨b1, e1, g1⟩ := extendOne_cons.1 h1
      subst e1
      obtain ⟨b2, e2, g2⟩ := extendOne_cons.1 h2
      rw [e2] at h3; injection h3 with _ h3; subst h3
      refine ⟨_, ⟨s, d, hf, pp, hpp, rfl⟩, pool, hpool, lsts, hl, k, i, c, pr, hres, i', hi, b1, n, g1, b2, n2, g2, ?_⟩
      rw [overwrite_eq (encode_length_add _ _)]; rfl

theorem liqMetas_kind {J : JupCfg} {S : SPool} {p : SwapParams} {remove : Bool} {sw : JupSwap} {accs : List Acc}
    (h : S.liqMetas J p remove = .ok (sw, accs)) : sw.isSwap = false := by
  simp only [SPool.liqMetas, bind_ok, pure_ok, Prod.exists, Prod.mk.injEq] at h
  obtain ⟨_, _, _, _, _, _, _, _, _, _, _, _, _, _, _, _, _, _, _, rfl, _⟩ := h
  cases remove <;> rfl

theorem swapMetas_kind {J : JupCfg} {S : SPool} {p : SwapParams} {sw : JupSwap} {accs : List Acc}
    (h : S.swapMetas J p = .ok (sw, accs)) : sw.isSwap = true := by
  simp only [SPool.swapMetas, bind_ok, pure_ok, Prod.exists, Prod.mk.injEq] at h
  obtain ⟨_, _, _, _, _, _, _, _, _, _, _, _, _, _, _, _, _, _, rfl, _⟩ := h
  rfl

/-- C50. `get_swap_and_account_metas` and the instruction the library builds for the same request describe the same call: one exists exactly
when the other does (exact-out only for trades between two LSTs), the accounts are those of the instruction preceded by the program, and the
account counts and list indices are the instruction's arguments. -/
theorem C50_metas {J : JupCfg} {list : List SanctumLst} {S₀ : SPool} (h0 : JupInit J list S₀) (ops : List JupOp) (p : SwapParams)
    (exactOut : Bool) (ix : TopIx) :
    (S₀.after J ops).swapIx J p exactOut = .ok ix ↔
      ∃ sw accs, (S₀.after J ops).metas J p = .ok (sw, roMeta J.cfg.programId :: accs) ∧ (exactOut = true → sw.isSwap = true) ∧
        ix = ⟨J.cfg.programId, accs, (sw.ix p exactOut).encode⟩ := by
  have hS := C49_pricing h0 ops
  generalize S₀.after J ops = S at hS
  have hrem := liqIx_iff (J := J) (S := S) p ix true
  have hadd := liqIx_iff (J := J) (S := S) p ix false
  simp only [if_true, Bool.false_eq_true, if_false] at hrem hadd
  simp only [SPool.swapIx, SPool.metas, bind_ok]
  constructor
  · rintro ⟨pool, hpool, h⟩
    split at h
    · rename_i c
      cases exactOut with
      | true => cases h
      | false =>
        obtain ⟨sw, accs, h1, h2⟩ := hrem.1 h
        exact ⟨sw, accs, ⟨pool, hpool, by rw [if_pos c]; exact h1⟩, by simp, h2⟩
    · rename_i c
      split at h
      · rename_i c2
        cases exactOut with
        | true => cases h
        | false =>
          obtain ⟨sw, accs, h1, h2⟩ := hadd.1 h
          exact ⟨sw, accs, ⟨pool, hpool, by rw [if_neg c, if_pos c2]; exact h1⟩, by simp, h2⟩
      · rename_i c2
        obtain ⟨sw, accs, h1, h2⟩ := (swapIx'_iff hS p exactOut ix).1 h
        exact ⟨sw, accs, ⟨pool, hpool, by rw [if_neg c, if_neg c2]; exact h1⟩, fun _ => swapMetas_kind h1, h2⟩
  · rintro ⟨sw, accs, ⟨pool, hpool, h⟩, hk, hix⟩
    refine ⟨pool, hpool, ?_⟩
    split at h
    · rename_i c
      have hn : exactOut = false := by
        have := liqMetas_kind h
        cases exactOut with
        | true => rw [hk rfl] at this; cases this
        | false => rfl
      subst hn
      rw [if_pos c]
      exact hrem.2 ⟨sw, accs, h, hix⟩
    · rename_i c
      rw [if_neg c]
      split at h
      · rename_i c2
        have hn : exactOut = false := by
          have := liqMetas_kind h
          cases exactOut with
          | true => rw [hk rfl] at this; cases this
          | false => rfl
        subst hn
        rw [if_pos c2]
        exact hadd.2 ⟨sw, accs, h, hix⟩
      · rename_i c2
        rw [if_neg c2]
        exact (swapIx'_iff hS p exactOut ix).2 ⟨sw, accs, h, hix⟩

/-- C50, the other half of the claim: the accounts always begin with the program. -/
theorem C50_program {J : JupCfg} {S : SPool} {p : SwapParams} {sw : JupSwap} {accs : List Acc} (h : S.metas J p = .ok (sw, accs)) :
    accs.head? = some (roMeta J.cfg.programId) := by
  have hl : ∀ {r}, S.liqMetas J p r = .ok (sw, accs) → accs.head? = some (roMeta J.cfg.programId) := by
    intro r h
    simp only [SPool.liqMetas, bind_ok, pure_ok, Prod.exists, Prod.mk.injEq] at h
    obtain ⟨_, _, _, _, _, _, _, _, _, _, _, a1, n, h1, a2, n2, h2, _, _, _, rfl⟩ := h
    obtain ⟨b1, e1, g1⟩ := extendOne_cons.1 h1
    subst e1
    obtain ⟨b2, e2, g2⟩ := extendOne_cons.1 h2
    rw [e2]; rfl
  simp only [SPool.metas, bind_ok] at h
  obtain ⟨pool, hpool, h⟩ := h
  split at h
  · exact hl h
  · split at h
    · exact hl h
    · simp only [SPool.swapMetas, bind_ok, pure_ok, Prod.exists, Prod.mk.injEq] at h
      obtain ⟨_, _, _, _, _, _, _, a1, n, m, h1, a2, n2, h2, _, _, _, _, _, rfl⟩ := h
      obtain ⟨b1, e1, g1⟩ := extendSrcDst_cons.1 h1
      subst e1
      obtain ⟨b2, e2, g2⟩ := extendSwap_cons.1 h2
      rw [e2]; rfl

/-! ### The hypotheses are met -/

namespace Ex

/-- The example cache is one of those: its metas and instructions, for a swap either way, a deposit and a redemption. -/
def described (a b : Pubkey) (x y : Pubkey) : Option (JupSwap × List Pubkey) :=
  ((((fresh0 (st 7)).after jup (changes.take 2)).metas jup ⟨3000, 100, a, b, x, y, 40⟩).toOption).map fun r => (r.1, r.2.map Acc.key)

example : described 21 22 41 42 = some (.sanctumS 1 5 0 1, [13, 40, 21, 22, 41, 42, 243069, 8, 8, 1, 2, 202602, 243065, 31, 32, 701, 700, 702, 703, 7, 1021, 1022]) ∧
    described 21 20 41 43 = some (.addLiquidity 1 0, [13, 40, 21, 41, 43, 20, 202606, 8, 8, 1, 2, 202602, 31, 7]) ∧
    described 20 21 43 41 = some (.removeLiquidity 1 0, [13, 40, 21, 41, 43, 20, 202606, 8, 8, 1, 2, 202602, 31, 7, 300]) := by
  decide +kernel

/-- A pool state that names another pricing program drops the cached one; the old one's return brings it back. -/
example : (((fresh0 (st 7)).after jup (changes.take 2)).pricing.isSome,
    ((fresh0 (st 7)).after jup (changes.take 2 ++ [.pool fun k => if k = 1 then
      (st 7).ctl.pool.map fun p => ⟨8, ({ p with pricingProgram := 99 } : PoolState).toBytes 7⟩ else none])).pricing.isSome,
    ((fresh0 (st 7)).after jup (changes.take 2 ++ [.pool fun k => if k = 1 then
      (st 7).ctl.pool.map fun p => ⟨8, ({ p with pricingProgram := 99 } : PoolState).toBytes 7⟩ else none, .full (fetch (st 7))])).pricing.isSome) =
    (true, false, true) := by decide +kernel

end Ex

end S
