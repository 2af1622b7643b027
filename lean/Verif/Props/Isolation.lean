import Verif.Props.Deployed
import Verif.Proofs.EnvCongr
/-
C90: a failing calculator, stake pool or pricing program is felt only by the instructions that need it.
-/
set_option autoImplicit false
namespace S

/-! ### Specification -/

/-- `p` is the calculator of the LST at index `i`. -/
def World.CalcOf (w : World) (i : Nat) (p : Pubkey) : Prop := ∃ s, w.ctl.lsts[i]? = some s ∧ s.solValueCalculator = p

/-- `p` is the pool's pricing program. -/
def World.PricingIs (w : World) (p : Pubkey) : Prop := ∃ ps, w.ctl.pool = some ps ∧ ps.pricingProgram = p

/-- The programs an instruction depends on: the calculators of the LSTs it names and, for trades, the pricing program; the new calculator when one is set. All others are
independent of calculators and pricing program. -/
def Ix.Needs (w : World) (accs : List Acc) : Ix → Pubkey → Prop
  | .syncSolValue i, p => w.CalcOf i p
  | .swapExactIn a, p => w.CalcOf a.srcLstIndex p ∨ w.CalcOf a.dstLstIndex p ∨ w.PricingIs p
  | .swapExactOut a, p => w.CalcOf a.srcLstIndex p ∨ w.CalcOf a.dstLstIndex p ∨ w.PricingIs p
  | .addLiquidity a, p => w.CalcOf a.lstIndex p ∨ w.PricingIs p
  | .removeLiquidity a, p => w.CalcOf a.lstIndex p ∨ w.PricingIs p
  | .setSolValueCalculator _, p => ∃ x, accs[5]? = some x ∧ x.key = p
  | .startRebalance a, p => w.CalcOf a.srcLstIndex p ∨ w.CalcOf a.dstLstIndex p
  | .endRebalance, p => ∃ r, w.ctl.rebal = some r ∧ w.CalcOf r.dstLstIndex p
  | _, _ => False

/-- Program `p` answers alike in both environments, as long as it is given accounts of `accs` only (besides the mint). -/
structure Env.SameFor {cfg : Cfg} (e e' : Env cfg) (accs : List Acc) (p : Pubkey) : Prop where
  calcs : ∀ n w ms q, (∀ x ∈ ms.tail, x ∈ accs) → e.askCalc n w p ms q = e'.askCalc n w p ms q
  prices : ∀ n w ms q, e.askPrice n w p ms q = e'.askPrice n w p ms q

/-! ### Proofs -/

section
variable {cfg : Cfg} {e e' : Env cfg} {L : RatioLib} {w : World} {accs : List Acc}

/-- A calculator call both environments answer alike. -/
structure CalcCpi.Same (e e' : Env cfg) (accs : List Acc) (c : CalcCpi) : Prop where
  same : e.SameFor e' accs c.program
  accs : ∀ x ∈ c.remaining, x ∈ accs

theorem CalcCpi.Same.ask {c : CalcCpi} (h : c.Same e e' accs) {n : Nat} {w : World} {q : CalcReq} : c.ask e n w q = c.ask e' n w q := by
  simp only [CalcCpi.ask, h.same.calcs n w c.metas q (by simpa [CalcCpi.metas] using h.accs)]

theorem ask_price_same {c : PriceCpi} (h : e.SameFor e' accs c.program) {n : Nat} {w : World} {q : PriceReq} : c.ask e n w q = c.ask e' n w q := by
  simp only [PriceCpi.ask, h.prices n w _ q]

theorem CalcCpi.Same.sync {c : CalcCpi} (h : c.Same e e' accs) {n i : Nat} {k : Pubkey} {w : World} : syncUnchecked e n w k c i = syncUnchecked e' n w k c i := by
  unfold syncUnchecked
  refine bind_congr_ok fun b hb => ?_
  rw [h.ask]

theorem calcCpi_of {ls : List LstState} {m : Pubkey} {suf : List Acc} {i : Nat} {c : CalcCpi} (h : verifyCalcCpi ls m suf i = .ok c) :
    (∃ s, ls[i]? = some s ∧ s.solValueCalculator = c.program) ∧ ∀ x ∈ c.remaining, x ∈ suf := by
  simp only [verifyCalcCpi, bind_ok, okOr_ok, require_ok, exists_const, pure_ok] at h
  obtain ⟨c, hc, s, hs, hp, rfl⟩ := h
  refine ⟨⟨s, hs, hp.symm⟩, ?_⟩
  unfold CalcCpi.ofSuffix at hc
  split at hc
  · cases hc
  · injection hc with hc; subst hc
    exact fun x hx => List.mem_cons_of_mem _ hx

theorem splitAt_mem {as a b : List Acc} {n : Nat} (h : splitAt as n = .ok (a, b)) : (∀ x ∈ a, x ∈ as) ∧ ∀ x ∈ b, x ∈ as := by
  simp only [splitAt, bind_ok, require_ok, exists_const, pure_ok, Prod.mk.injEq] at h
  obtain ⟨-, rfl, rfl⟩ := h
  exact ⟨fun x hx => List.mem_of_mem_take hx, fun x hx => List.mem_of_mem_drop hx⟩

theorem priceCpi_of {p : PoolState} {mints : List Pubkey} {suf : List Acc} {c : PriceCpi} (h : verifyPriceCpi p mints suf = .ok c) : c.program = p.pricingProgram := by
  unfold verifyPriceCpi at h
  split at h
  · cases h
  · simp only [bind_ok, require_ok, exists_const, pure_ok] at h
    obtain ⟨hp, rfl⟩ := h
    exact hp

theorem srcDst_of {ls : List LstState} {m m' : Pubkey} {suf : List Acc} {n i j : Nat} {c : SrcDstCpis} (h : verifySrcDstCpis ls m m' suf n i j = .ok c) :
    (∃ s, ls[i]? = some s ∧ s.solValueCalculator = c.src.program) ∧ (∃ s, ls[j]? = some s ∧ s.solValueCalculator = c.dst.program) ∧
    (∀ x ∈ c.src.remaining, x ∈ suf) ∧ ∀ x ∈ c.dst.remaining, x ∈ suf := by
  simp only [verifySrcDstCpis, bind_ok, Prod.exists, pure_ok] at h
  obtain ⟨a, b, hab, c1, h1, c2, h2, rfl⟩ := h
  obtain ⟨m1, m2⟩ := splitAt_mem hab
  obtain ⟨x1, y1⟩ := calcCpi_of h1
  obtain ⟨x2, y2⟩ := calcCpi_of h2
  exact ⟨x1, x2, fun x hx => m1 x (y1 x hx), fun x hx => m2 x (y2 x hx)⟩

theorem swapLoad_suffix {a : SwapAccs} {suf : List Acc} (h : SwapAccs.load accs = .ok (a, suf)) : ∀ x ∈ suf, x ∈ accs := by
  unfold SwapAccs.load at h
  split at h
  · injection h with h; injection h with _ h; subst h
    intro x hx; simp [hx]
  · cases h

theorem liqLoad_suffix {a : LiqAccs} {suf : List Acc} (h : LiqAccs.load accs = .ok (a, suf)) : ∀ x ∈ suf, x ∈ accs := by
  unfold LiqAccs.load at h
  split at h
  · injection h with h; injection h with _ h; subst h
    intro x hx; simp [hx]
  · cases h

/-- The calls of a swap both environments answer alike. -/
theorem swap_same {n m i j : Nat} (hn : ∀ p, w.CalcOf i p ∨ w.CalcOf j p ∨ w.PricingIs p → e.SameFor e' accs p) {a : SwapAccs} {suf : List Acc}
    (hl : SwapAccs.load accs = .ok (a, suf)) {c : SwapCpis} (h : verifySwap cfg w a suf n m i j = .ok c) :
    c.src.Same e e' accs ∧ c.dst.Same e e' accs ∧ e.SameFor e' accs c.pricing.program := by
  obtain ⟨p, src, dst, tp, tp', V⟩ := verifySwap_inv hl h
  have hc := V.cpis
  simp only [verifySwapCpis, bind_ok, Prod.exists, pure_ok] at hc
  obtain ⟨a', b', hab, c1, h1, c2, h2, rfl⟩ := hc
  obtain ⟨m1, m2⟩ := splitAt_mem hab
  obtain ⟨x1, x2, y1, y2⟩ := srcDst_of h1
  have hs := swapLoad_suffix hl
  exact ⟨⟨hn _ (.inl x1), fun x hx => hs x (m1 x (y1 x hx))⟩, ⟨hn _ (.inr (.inl x2)), fun x hx => hs x (m1 x (y2 x hx))⟩,
    hn _ (.inr (.inr ⟨p, V.pool, (priceCpi_of h2).symm⟩))⟩

/-- The calls of a deposit or redemption both environments answer alike. -/
theorem liq_same {n i : Nat} {b : Bool} (hn : ∀ p, w.CalcOf i p ∨ w.PricingIs p → e.SameFor e' accs p) {a : LiqAccs} {suf : List Acc}
    (hl : LiqAccs.load accs = .ok (a, suf)) {c : LpCpis} (h : verifyLiq cfg w a suf n i b = .ok c) :
    c.lst.Same e e' accs ∧ e.SameFor e' accs c.pricing.program := by
  obtain ⟨p, s, tp, V⟩ := verifyLiq_inv hl h
  have hc := V.cpis
  simp only [verifyLpCpis, bind_ok, Prod.exists, pure_ok] at hc
  obtain ⟨a', b', hab, c1, h1, c2, h2, rfl⟩ := hc
  obtain ⟨m1, m2⟩ := splitAt_mem hab
  obtain ⟨x1, y1⟩ := calcCpi_of h1
  have hs := liqLoad_suffix hl
  exact ⟨⟨hn _ (.inl x1), fun x hx => hs x (m1 x (y1 x hx))⟩, hn _ (.inr ⟨p, V.pool, (priceCpi_of h2).symm⟩)⟩

theorem finishSwap_same {a : SwapAccs} {c : SwapCpis} (h1 : c.src.Same e e' accs) (h2 : c.dst.Same e e' accs) {w : World} {i j t x y z : Nat} :
    finishSwap e w a c i j t x y z = finishSwap e' w a c i j t x y z := by
  unfold finishSwap
  refine bind_congr_ok fun _ _ => bind_congr_ok fun _ _ => bind_congr_ok fun _ _ => bind_congr_ok fun l1 _ => bind_congr_ok fun l2 _ => bind_congr_ok fun l3 _ => ?_
  rw [h1.sync]
  refine bind_congr_ok fun w1 _ => ?_
  rw [h2.sync]

theorem processSwapExactIn_same {args : SwapExactInArgs} (hn : ∀ p, (Ix.swapExactIn args).Needs w accs p → e.SameFor e' accs p) :
    processSwapExactIn cfg L e w accs args = processSwapExactIn cfg L e' w accs args := by
  unfold processSwapExactIn
  refine bind_congr_ok fun _ _ => bind_congr_ok fun ⟨a, suffix⟩ hl => bind_congr_ok fun c hc => ?_
  obtain ⟨h1, h2, h3⟩ := swap_same hn hl hc
  rw [h1.sync]
  refine bind_congr_ok fun w1 _ => ?_
  rw [h2.sync]
  refine bind_congr_ok fun w2 _ => bind_congr_ok fun t _ => ?_
  rw [h1.ask]
  refine bind_congr_ok fun ⟨r3, w3⟩ _ => bind_congr_ok fun _ _ => ?_
  rw [ask_price_same h3]
  refine bind_congr_ok fun ⟨r4, w4⟩ _ => ?_
  dsimp only
  rw [h2.ask]
  exact bind_congr_ok fun ⟨r5, w5⟩ _ => bind_congr_ok fun _ _ => bind_congr_ok fun _ _ => bind_congr_ok fun _ _ => bind_congr_ok fun _ _ => finishSwap_same h1 h2

theorem processSwapExactOut_same {args : SwapExactOutArgs} (hn : ∀ p, (Ix.swapExactOut args).Needs w accs p → e.SameFor e' accs p) :
    processSwapExactOut cfg L e w accs args = processSwapExactOut cfg L e' w accs args := by
  unfold processSwapExactOut
  refine bind_congr_ok fun _ _ => bind_congr_ok fun ⟨a, suffix⟩ hl => bind_congr_ok fun c hc => ?_
  obtain ⟨h1, h2, h3⟩ := swap_same hn hl hc
  rw [h1.sync]
  refine bind_congr_ok fun w1 _ => ?_
  rw [h2.sync]
  refine bind_congr_ok fun w2 _ => bind_congr_ok fun t _ => ?_
  rw [h2.ask]
  refine bind_congr_ok fun ⟨r3, w3⟩ _ => bind_congr_ok fun _ _ => ?_
  rw [ask_price_same h3]
  refine bind_congr_ok fun ⟨r4, w4⟩ _ => ?_
  dsimp only
  rw [h1.ask]
  exact bind_congr_ok fun ⟨r5, w5⟩ _ => bind_congr_ok fun _ _ => bind_congr_ok fun _ _ => bind_congr_ok fun _ _ => bind_congr_ok fun _ _ => finishSwap_same h1 h2

theorem processAddLiquidity_same {args : AddLiquidityArgs} (hn : ∀ p, (Ix.addLiquidity args).Needs w accs p → e.SameFor e' accs p) :
    processAddLiquidity cfg L e w accs args = processAddLiquidity cfg L e' w accs args := by
  unfold processAddLiquidity
  refine bind_congr_ok fun _ _ => bind_congr_ok fun ⟨a, suffix⟩ hl => bind_congr_ok fun c hc => ?_
  obtain ⟨h1, h3⟩ := liq_same hn hl hc
  rw [h1.sync]
  refine bind_congr_ok fun w1 _ => bind_congr_ok fun t _ => ?_
  rw [h1.ask]
  refine bind_congr_ok fun ⟨r3, w3⟩ _ => ?_
  dsimp only
  rw [ask_price_same h3]
  refine bind_congr_ok fun ⟨r4, w4⟩ _ => ?_
  dsimp only
  refine bind_congr_ok fun _ _ => bind_congr_ok fun _ _ => bind_congr_ok fun _ _ => bind_congr_ok fun _ _ => bind_congr_ok fun _ _ =>
    bind_congr_ok fun _ _ => bind_congr_ok fun _ _ => bind_congr_ok fun l1 _ => bind_congr_ok fun l2 _ => bind_congr_ok fun l3 _ => ?_
  rw [h1.sync]

theorem processRemoveLiquidity_same {args : RemoveLiquidityArgs} (hn : ∀ p, (Ix.removeLiquidity args).Needs w accs p → e.SameFor e' accs p) :
    processRemoveLiquidity cfg L e w accs args = processRemoveLiquidity cfg L e' w accs args := by
  unfold processRemoveLiquidity
  refine bind_congr_ok fun _ _ => bind_congr_ok fun ⟨a, suffix⟩ hl => bind_congr_ok fun c hc => ?_
  obtain ⟨h1, h3⟩ := liq_same hn hl hc
  rw [h1.sync]
  refine bind_congr_ok fun w1 _ => bind_congr_ok fun p _ => bind_congr_ok fun s _ => bind_congr_ok fun v _ => ?_
  rw [ask_price_same h3]
  refine bind_congr_ok fun ⟨r4, w4⟩ _ => ?_
  dsimp only
  refine bind_congr_ok fun _ _ => ?_
  rw [h1.ask]
  refine bind_congr_ok fun ⟨r5, w5⟩ _ => ?_
  dsimp only
  refine bind_congr_ok fun _ _ => bind_congr_ok fun _ _ => bind_congr_ok fun _ _ => bind_congr_ok fun l1 _ => bind_congr_ok fun l2 _ => bind_congr_ok fun l3 _ => ?_
  exact h1.sync

theorem processSync_same {i : Nat} (hn : ∀ p, (Ix.syncSolValue i).Needs w accs p → e.SameFor e' accs p) : processSync cfg e w accs i = processSync cfg e' w accs i := by
  unfold processSync
  refine bind_congr_ok fun ⟨a, suffix⟩ hl => bind_congr_ok fun c hc => ?_
  have hs : ∀ x ∈ suffix, x ∈ accs := by
    unfold SyncAccs.load at hl
    split at hl
    · injection hl with h; injection h with _ h; subst h
      intro x hx; simp [hx]
    · cases hl
  simp only [verifySync, bind_ok] at hc
  obtain ⟨_, _, _, _, _, _, _, _, _, _, _, _, _, _, _, _, hc⟩ := hc
  obtain ⟨x1, y1⟩ := calcCpi_of hc
  exact CalcCpi.Same.sync ⟨hn _ x1, fun x hx => hs x (y1 x hx)⟩

theorem processStartRebalance_same {tx : TxInfo} {args : StartRebalanceArgs} (hn : ∀ p, (Ix.startRebalance args).Needs w accs p → e.SameFor e' accs p) :
    processStartRebalance cfg e tx w accs args = processStartRebalance cfg e' tx w accs args := by
  unfold processStartRebalance
  refine bind_congr_ok fun ⟨a, suffix⟩ hl => bind_congr_ok fun c hc => ?_
  have hs : ∀ x ∈ suffix, x ∈ accs := by
    unfold StartRebAccs.load at hl
    split at hl
    · injection hl with h; injection h with _ h; subst h
      intro x hx; simp [hx]
    · cases hl
  have hc' : ∃ n, verifySrcDstCpis w.ctl.lsts a.srcLstMint.key a.dstLstMint.key suffix n args.srcLstIndex args.dstLstIndex = .ok c := by
    simp only [verifyStartRebalance, bind_ok] at hc
    casesm* Exists _, And _ _
    rename_i hv _ _ hc
    rw [pure_ok] at hc; subst hc
    exact ⟨_, hv⟩
  obtain ⟨n, hc'⟩ := hc'
  obtain ⟨x1, x2, y1, y2⟩ := srcDst_of hc'
  have h1 : c.src.Same e e' accs := ⟨hn _ (.inl x1), fun x hx => hs x (y1 x hx)⟩
  have h2 : c.dst.Same e e' accs := ⟨hn _ (.inr x2), fun x hx => hs x (y2 x hx)⟩
  rw [h1.sync]
  refine bind_congr_ok fun w1 _ => ?_
  rw [h2.sync]
  refine bind_congr_ok fun w2 _ => bind_congr_ok fun t _ => bind_congr_ok fun l _ => ?_
  rw [h1.sync]

theorem processEndRebalance_same (hn : ∀ p, Ix.endRebalance.Needs w accs p → e.SameFor e' accs p) : processEndRebalance cfg e w accs = processEndRebalance cfg e' w accs := by
  unfold processEndRebalance
  refine bind_congr_ok fun ⟨a, suffix⟩ hl => bind_congr_ok fun _ _ => bind_congr_ok fun _ _ => bind_congr_ok fun _ _ => bind_congr_ok fun _ _ =>
    bind_congr_ok fun rr hrr => bind_congr_ok fun _ _ => bind_congr_ok fun _ _ => bind_congr_ok fun _ _ => bind_congr_ok fun _ _ =>
    bind_congr_ok fun _ _ => bind_congr_ok fun _ _ => bind_congr_ok fun _ _ => bind_congr_ok fun c hc => ?_
  have hs : ∀ x ∈ suffix, x ∈ accs := by
    unfold EndRebAccs.load at hl
    split at hl
    · injection hl with h; injection h with _ h; subst h
      intro x hx; simp [hx]
    · cases hl
  obtain ⟨x1, y1⟩ := calcCpi_of hc
  have h1 : c.Same e e' accs := ⟨hn _ ⟨rr, okOr_ok.1 hrr, x1⟩, fun x hx => hs x (y1 x hx)⟩
  dsimp only
  rw [h1.sync]

theorem processSetCalc_same {i : Nat} (hn : ∀ p, (Ix.setSolValueCalculator i).Needs w accs p → e.SameFor e' accs p) :
    processSetSolValueCalculator cfg e w accs i = processSetSolValueCalculator cfg e' w accs i := by
  unfold processSetSolValueCalculator
  refine bind_congr_ok fun ⟨a, suffix⟩ hl => bind_congr_ok fun _ _ => bind_congr_ok fun _ _ => bind_congr_ok fun _ _ => bind_congr_ok fun _ _ =>
    bind_congr_ok fun _ _ => bind_congr_ok fun _ _ => bind_congr_ok fun _ _ => bind_congr_ok fun _ _ => bind_congr_ok fun _ _ =>
    bind_congr_ok fun _ _ => bind_congr_ok fun c hc => bind_congr_ok fun _ _ => ?_
  have h1 : c.Same e e' accs := by
    unfold SetCalcAccs.load at hl
    split at hl
    · injection hl with h; injection h with _ h; subst h
      unfold CalcCpi.ofSuffix at hc
      split at hc
      · cases hc
      · injection hc with hc; subst hc
        refine ⟨hn _ ⟨_, rfl, rfl⟩, fun x hx => ?_⟩
        have hx : x ∈ _ := hx
        simp [hx]
    · cases hl
  exact h1.sync

/-- C90. Whatever else fails, answers differently or turns malicious: an instruction executes the same, with the same result or the same error, as long as the programs it
needs answer the same about the accounts it passes. -/
theorem C90_isolated {tx : TxInfo} {ix : Ix} (hn : ∀ p, ix.Needs w accs p → e.SameFor e' accs p) :
    processIx cfg L e tx w accs ix = processIx cfg L e' tx w accs ix := by
  cases ix with
  | syncSolValue i => exact processSync_same hn
  | swapExactIn a => exact processSwapExactIn_same hn
  | swapExactOut a => exact processSwapExactOut_same hn
  | addLiquidity a => exact processAddLiquidity_same hn
  | removeLiquidity a => exact processRemoveLiquidity_same hn
  | setSolValueCalculator i => exact processSetCalc_same hn
  | startRebalance a => exact processStartRebalance_same hn
  | endRebalance => exact processEndRebalance_same hn
  | _ => rfl
end

/-! ### The deployed system -/

theorem calcProcess_local {L : RatioLib} {pc : PoolCfg} {ch ch' : OnChain} {st : Option CalcState} {ms : List Acc} {q : CalcReq}
    (hd : ∀ x ∈ ms.tail, ch.data x.key = ch'.data x.key ∧ ch.owner x.key = ch'.owner x.key) (he : ch.epoch = ch'.epoch) :
    calcProcess L pc ch st ms q.asIx = calcProcess L pc ch' st ms q.asIx := by
  have key : verifyLstSol pc ch st ms = verifyLstSol pc ch' st ms := by
    have hl : ∀ a, loadLstSol ms = .ok a → a.poolState ∈ ms.tail ∧ a.poolProgram ∈ ms.tail ∧ a.poolProgramData ∈ ms.tail := by
      intro a h
      unfold loadLstSol at h
      split at h
      · injection h with h; subst h; simp
      · cases h
    unfold verifyLstSol
    split
    · unfold verifySpl
      refine bind_congr_ok fun a ha => ?_
      obtain ⟨h1, h2, h3⟩ := hl a ha
      simp only [verifyNoUpgrade, (hd _ h1).1, (hd _ h1).2, (hd _ h2).1, (hd _ h3).1, he]
    · unfold verifyLido
      refine bind_congr_ok fun a ha => ?_
      obtain ⟨h1, h2, h3⟩ := hl a ha
      simp only [verifyNoUpgrade, (hd _ h1).1, (hd _ h3).1, he]
    · unfold verifyMarinade
      refine bind_congr_ok fun a ha => ?_
      obtain ⟨h1, h2, h3⟩ := hl a ha
      simp only [verifyNoUpgrade, (hd _ h1).1, (hd _ h3).1]
  cases q <;> simp only [CalcReq.asIx, calcProcess, key]

/-- C90 in the deployed system. Two situations with the same pool, tokens and fees, but possibly different stake pools, stake pool programs, calculator states and foreign
programs. If the accounts passed to an instruction and the calculators it needs are the same in both, then so is the outcome: an LST whose stake pool is outdated, paused or
upgraded, or whose calculator was never set up, stops no instruction that does not name it. -/
theorem C90_system {sc : SysCfg} {L : RatioLib} {s s' : Sys sc} {o o' : Outside sc} {accs : List Acc} {data : List UInt8} {ix : Ix} (hix : decodeIx data = .ok ix)
    (hw : s.world = s'.world) (hf : s.flatCalls = s'.flatCalls) (hv : o.view = o'.view) (he : o.chain.epoch = o'.chain.epoch)
    (hch : ∀ x ∈ accs, o.chain.data x.key = o'.chain.data x.key ∧ o.chain.owner x.key = o'.chain.owner x.key)
    (hcalc : ∀ p, ix.Needs s.world accs p → s.calcCalls p = s'.calcCalls p) (hother : ∀ p, ix.Needs s.world accs p → o.other.SameFor o'.other accs p) :
    (SysTx.run L s [.controller o accs data]).map Sys.world = (SysTx.run L s' [.controller o' accs data]).map Sys.world := by
  have hn : ∀ p, ix.Needs s.world accs p → (s.env L o).SameFor (s'.env L o') accs p := by
    intro p hp
    constructor
    · intro n w ms q hms
      show s.answerCalc L o n w p ms q = s'.answerCalc L o' n w p ms q
      unfold Sys.answerCalc
      split
      · rfl
      · split
        · rename_i pc hpc
          have e1 : pc.programId = p := by simpa using List.find?_some hpc
          have e2 : s.calc L pc = s'.calc L pc := by simp only [Sys.calc, e1, hcalc p hp]
          rw [e2, calcProcess_local (fun x hx => hch x (hms x hx)) he]
        · exact (hother p hp).calcs n w ms q hms
    · intro n w ms q
      show s.answerPrice L o n w p ms q = s'.answerPrice L o' n w p ms q
      unfold Sys.answerPrice
      rw [hv, show s.flat L = s'.flat L by simp only [Sys.flat, hf], (hother p hp).prices n w ms q]
  have key : ∀ tx, processInstruction sc.cfg L (s.env L o) tx s.world sc.cfg.programId accs data =
      processInstruction sc.cfg L (s'.env L o') tx s'.world sc.cfg.programId accs data := by
    intro tx
    unfold processInstruction
    refine bind_congr_ok fun _ _ => ?_
    simp only [hix, bind, Except.bind]
    rw [← hw]
    exact C90_isolated hn
  simp only [SysTx.run, runSysSteps, runSysActions, SysStep.actions, SysAction.run, Call.run, List.map_cons, List.map_nil, SysStep.top, key, bind, Except.bind, pure, Except.pure]
  cases h1 : require (signersOk sc.cfg accs) Err.missingRequiredSignature with
  | error e => rfl
  | ok _ =>
    dsimp only
    cases processInstruction sc.cfg L (s'.env L o') ⟨[⟨sc.cfg.programId, accs, data⟩], 0⟩ s'.world sc.cfg.programId accs data <;> rfl

/-! ### Concrete cases -/

namespace Ex

def sysLiqA : List Acc := liqA.take 11 ++ [ro 31, ro 7, ro 300]

/-- After 19 transactions of the example's deployment. Lido's program is upgraded (slot 6000) and its pool outdated: redemptions for wrapped SOL are the same as before. -/
theorem isolated : (SysTx.run .ex (sysAt 19) [.controller (outside 0 5000) sysLiqA (Ix.removeLiquidity ⟨1, 0, 10000, 1⟩).encode]).map Sys.world =
    (SysTx.run .ex (sysAt 19) [.controller (outside 7 6000) sysLiqA (Ix.removeLiquidity ⟨1, 0, 10000, 1⟩).encode]).map Sys.world := by
  refine C90_system (ix := .removeLiquidity ⟨1, 0, 10000, 1⟩) (by decide +kernel) rfl rfl rfl rfl ?_ (fun _ _ => rfl) (fun _ _ => ⟨fun _ _ _ _ _ => rfl, fun _ _ _ _ => rfl⟩)
  intro x hx
  refine ⟨?_, rfl⟩
  have h : ∀ x ∈ sysLiqA, x.key ≠ 700 ∧ x.key ≠ 703 := by decide +kernel
  simp only [outside, onchain, (h x hx).1, (h x hx).2, if_false]

example : (SysTx.run .ex (sysAt 19) [.controller (outside 7 6000) sysLiqA (Ix.removeLiquidity ⟨1, 0, 10000, 1⟩).encode]).toOption.map (fun s => bal s.world.led 41) = some 973968 ∧
    (SysTx.run .ex (sysAt 19) [.controller (outside 7 6000) sysLiqB (Ix.removeLiquidity ⟨5, 1, 10000, 1⟩).encode]).toOption.isSome = false := by decide +kernel

/-- At the controller: with the calculator of LST 22 broken, LST 21 is synced as before. -/
def brokenB : Env cfg := Env.pure cfg (fun p ms q => if p = 32 then .error .token else calcF p ms q) priceF

example (tx : TxInfo) (accs : List Acc) : processIx cfg .ex brokenB tx (st 7) accs (.syncSolValue 0) = processIx cfg .ex env tx (st 7) accs (.syncSolValue 0) := by
  refine C90_isolated ?_
  rintro p ⟨s, hs, rfl⟩
  have h : (st 7).ctl.lsts[0]?.map (·.solValueCalculator) = some 31 := by decide +kernel
  rw [hs] at h
  have h : s.solValueCalculator = 31 := Option.some.inj h
  rw [h]
  exact ⟨fun _ _ _ _ _ => rfl, fun _ _ _ _ => rfl⟩
example : (processIx cfg .ex brokenB ⟨[], 0⟩ (st 7) [ro 21, rw 1, rw 2, ro resA, ro 31] (.syncSolValue 0)).toOption.isSome = true ∧
    (processIx cfg .ex brokenB ⟨[], 0⟩ (st 7) [ro 22, rw 1, rw 2, ro resB, ro 32] (.syncSolValue 1)).toOption.isSome = false := by decide +kernel

end Ex
end S
