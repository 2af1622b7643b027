import Verif.Props.Order
import Verif.Props.System
/-
C86 in the deployed system.
-/
set_option autoImplicit false
namespace S

/-! ### Specification -/

/-- Within `o`, no LST has two usable stake pools with different figures (of the same calculator program). -/
def OnePool (sc : SysCfg) (ch : OnChain) : Prop :=
  ∀ {prog mint : Pubkey} {c c' : AnyCalc}, sc.PricedBy ch prog mint c → sc.PricedBy ch prog mint c' → c = c'

/-! ### Proofs -/

section
variable {sc : SysCfg} {L : RatioLib}

theorem Env.ext_of {cfg : Cfg} {e e' : Env cfg} (h1 : e.askCalc = e'.askCalc) (h2 : e.askPrice = e'.askPrice) : e = e' := by
  cases e; cases e'; cases h1; cases h2; rfl

/-- The calculators of the system as a function of the request. -/
def Sys.calcFn (L : RatioLib) (s : Sys sc) (o : Outside sc) (fo : Pubkey → List Acc → CalcReq → R Range) (p : Pubkey) (ms : List Acc) (q : CalcReq) : R Range :=
  if p = sc.wsolCalc then wsolAnswer sc.wsolMint ms q
  else
    match sc.pools.find? (fun pc => pc.programId = p) with
    | some pc =>
      match calcProcess L pc o.chain (s.calc L pc) ms q.asIx with
      | .ok (_, some r) => .ok r
      | .ok (_, none) => .error .decode
      | .error e => .error e
    | none => fo p ms q

/-- The pricing programs of the system as a function of the request. -/
def Sys.priceFn (L : RatioLib) (s : Sys sc) (o : Outside sc) (go : Pubkey → List Acc → PriceReq → R Nat) (p : Pubkey) (ms : List Acc) (q : PriceReq) : R Nat :=
  if p = sc.fc.programId then
    match flatProcess L o.view (s.flat L) ms q.asIx with
    | .ok (_, some r) => .ok r
    | .ok (_, none) => .error .decode
    | .error e => .error e
  else if p = sc.noFee then .ok q.solValue
  else go p ms q

theorem Sys.env_pure {s : Sys sc} {o : Outside sc} {fo : Pubkey → List Acc → CalcReq → R Range} {go : Pubkey → List Acc → PriceReq → R Nat}
    (ho : o.other = .pure sc.cfg fo go) : s.env L o = .pure sc.cfg (s.calcFn L o fo) (s.priceFn L o go) := by
  apply Env.ext_of
  · funext n w p ms q
    simp only [Sys.env, Sys.answerCalc, Env.pure, Sys.calcFn]
    by_cases h : p = sc.wsolCalc
    · simp only [h, if_true]
    · simp only [h, if_false]
      cases hf : sc.pools.find? (fun pc => pc.programId = p) with
      | none => simp only [ho, Env.pure]
      | some pc =>
        dsimp only
        rcases hc : calcProcess L pc o.chain (s.calc L pc) ms q.asIx with e | ⟨x, _ | r⟩ <;> rfl
  · funext n w p ms q
    simp only [Sys.env, Sys.answerPrice, Env.pure, Sys.priceFn]
    by_cases h : p = sc.fc.programId
    · simp only [h, if_true]
      rcases hc : flatProcess L o.view (s.flat L) ms q.asIx with e | ⟨x, _ | r⟩ <;> rfl
    · simp only [h, if_false]
      by_cases h : p = sc.noFee
      · simp only [h, if_true]; rfl
      · simp only [h, if_false, ho, Env.pure]

theorem Sys.calcFn_oneValue {s : Sys sc} {o : Outside sc} {fo : Pubkey → List Acc → CalcReq → R Range} {go : Pubkey → List Acc → PriceReq → R Nat}
    (ho : o.other = .pure sc.cfg fo go) (hv : OneValue fo) (h1 : OnePool sc o.chain) : OneValue (s.calcFn L o fo) := by
  intro p mint rest rest' q r r' h h'
  by_cases hs : sc.Serves p
  · have ask : ∀ {rest : List Acc} {r : Range}, s.calcFn L o fo p (⟨mint, false, false⟩ :: rest) q = .ok r →
        ∃ c, sc.PricedBy o.chain p mint c ∧ c.reply L q = .ok r := by
      intro rest r h
      refine Sys.calcAnswer (s := s) (o := o) (n := 0) (l := s.world.led) (mint := mint) hs ⟨s.world, ⟨mint, false, false⟩ :: rest, rfl, rfl, ?_⟩
      rw [Sys.env_pure ho]
      exact Env.pure_calc.2 ⟨h, rfl⟩
    obtain ⟨c, hc, hr⟩ := ask h
    obtain ⟨c', hc', hr'⟩ := ask h'
    rw [h1 hc hc', hr'] at hr
    injection hr with hr; exact hr.symm
  · have none : sc.pools.find? (fun pc => pc.programId = p) = none := by
      rw [List.find?_eq_none]
      intro pc hpc
      simp only [decide_eq_true_eq]
      exact fun h => hs (.inr ⟨pc, hpc, h.symm⟩)
    have nw : p ≠ sc.wsolCalc := fun h => hs (.inl h)
    simp only [Sys.calcFn, if_neg nw, none] at h h'
    exact hv h h'

theorem sysTrades_run {o : Outside sc} {fo : Pubkey → List Acc → CalcReq → R Range} {go : Pubkey → List Acc → PriceReq → R Nat}
    (ho : o.other = .pure sc.cfg fo go) {l : List (List Acc × List UInt8)} : ∀ {s t s' : Sys sc}, s.flatCalls = t.flatCalls → s.calcCalls = t.calcCalls →
    (l.map fun x => [SysStep.controller o x.1 x.2]).foldlM (SysTx.run L) s = .ok s' →
    (l.map (tradeTx sc.cfg (t.calcFn L o fo) (t.priceFn L o go))).foldlM (Tx.run L) s.world = .ok s'.world ∧ s'.flatCalls = s.flatCalls ∧
      s'.calcCalls = s.calcCalls := by
  induction l with
  | nil => intro s t s' _ _ h; cases h; exact ⟨rfl, rfl, rfl⟩
  | cons x l ih =>
    intro s t s' h1 h2 h
    simp only [List.map_cons, List.foldlM_cons, bind_ok] at h
    obtain ⟨s₁, h3, h4⟩ := h
    have he : s.env L o = .pure sc.cfg (t.calcFn L o fo) (t.priceFn L o go) := by
      rw [Sys.env_pure ho]
      congr 1
      · funext p ms q; simp only [Sys.calcFn, Sys.calc, h2]
      · funext p ms q; simp only [Sys.priceFn, Sys.flat, h1]
    simp only [SysTx.run, List.map_cons, List.map_nil, runSysSteps, SysStep.actions, runSysActions, SysAction.run, bind_ok, pure_ok] at h3
    obtain ⟨_, ⟨_, ⟨w, hw, rfl⟩, h3⟩, h3'⟩ := h3
    cases h3; cases h3'
    obtain ⟨h5, h6, h7⟩ := ih (s := { s with world := w }) (t := t) h1 h2 h4
    refine ⟨?_, h6, h7⟩
    simp only [List.map_cons, List.foldlM_cons, bind_ok]
    refine ⟨w, ?_, h5⟩
    simp only [Tx.run, tradeTx, List.map_cons, List.map_nil, runSteps, Step.run, bind_ok]
    rw [he] at hw
    exact ⟨w, hw, rfl⟩

/-- C86, deployed together: swaps and syncs of anyone leave the system in exactly the same state in whatever order they go through, between two
changes of the stake pools, of the fees and of the clock (`o` is the rest of the chain). Programs of others, if any are used, answer by the request. -/
theorem C86_system {s₀ s₁ s₂ : Sys sc} (hf : s₀.Fresh) {h : List (SysTx sc)} {o : Outside sc} {fo : Pubkey → List Acc → CalcReq → R Range}
    {go : Pubkey → List Acc → PriceReq → R Nat} (ho : o.other = .pure sc.cfg fo go) (hv : OneValue fo) (hone : OnePool sc o.chain)
    {l₁ l₂ : List (List Acc × List UInt8)} (hp : l₁.Perm l₂) (ht : ∀ x ∈ l₁, ∀ ix, decodeIx x.2 = .ok ix → ix.IsTrade)
    (h₁ : (l₁.map fun x => [SysStep.controller o x.1 x.2]).foldlM (SysTx.run L) (runSystem L s₀ h) = .ok s₁)
    (h₂ : (l₂.map fun x => [SysStep.controller o x.1 x.2]).foldlM (SysTx.run L) (runSystem L s₀ h) = .ok s₂) : s₁ = s₂ := by
  obtain ⟨a1, a2, a3⟩ := sysTrades_run ho rfl rfl h₁
  obtain ⟨b1, b2, b3⟩ := sysTrades_run ho rfl rfl h₂
  have := C86_order (C65_reachable hf h) (Sys.calcFn_oneValue ho hv hone) hp ht a1 b1
  obtain ⟨w1, f1, c1⟩ := s₁
  obtain ⟨w2, f2, c2⟩ := s₂
  dsimp only at this a2 a3 b2 b3
  rw [this, a2, a3, b2, b3]

end

/-! ### Examples -/
namespace Ex

/-- No token of the example has two stake pools. -/
theorem onePool (slot : Nat) : OnePool sysc (onchain 0 slot) := by
  intro prog mint c c' h h'
  rcases h with ⟨p, m, rfl⟩ | ⟨pc, hpc, p, k, hu⟩ <;> rcases h' with ⟨p', m', rfl⟩ | ⟨pc', hpc', p', k', hu'⟩
  · rfl
  · subst p
    simp only [sysc, List.mem_cons, List.not_mem_nil, or_false] at hpc'
    rcases hpc' with rfl | rfl | rfl | rfl | rfl <;> exact absurd p' (by decide)
  · subst p'
    simp only [sysc, List.mem_cons, List.not_mem_nil, or_false] at hpc
    rcases hpc with rfl | rfl | rfl | rfl | rfl <;> exact absurd p (by decide)
  · subst p
    simp only [sysc, List.mem_cons, List.not_mem_nil, or_false] at hpc hpc'
    rcases hpc with rfl | rfl | rfl | rfl | rfl
    · rcases hpc' with rfl | rfl | rfl | rfl | rfl
      · obtain ⟨x, rfl, _, rfl, hx, _⟩ := hu
        obtain ⟨x', rfl, _, rfl, hx', _⟩ := hu'
        rw [Except.ok.inj ((readLido_ok.2 hx).symm.trans (readLido_ok.2 hx'))]
      all_goals exact absurd p' (by decide)
    · rcases hpc' with rfl | rfl | rfl | rfl | rfl
      · exact absurd p' (by decide)
      · obtain ⟨x, rfl, _, rfl, hx, _⟩ := hu
        obtain ⟨x', rfl, _, rfl, hx', _⟩ := hu'
        rw [Except.ok.inj ((readMarinade_ok.2 hx).symm.trans (readMarinade_ok.2 hx'))]
      all_goals exact absurd p' (by decide)
    all_goals
      obtain ⟨_, _, h, _⟩ := hu
      simp only [onchain] at h
      exact absurd h (by decide)

/-- The two swaps of the example's history and a sync, one order and the other. -/
def sysOrder : List (List Acc × List UInt8) :=
  [(sysSwap, (Ix.swapExactIn ⟨1, 5, 0, 1, 10, 3000⟩).encode), (sysSwap, (Ix.swapExactOut ⟨1, 5, 0, 1, 5000, 2000⟩).encode),
   ([ro 21, rw 1, rw 2, ro resA, ro 31], (Ix.syncSolValue 0).encode)]

def sysBoth (l : List (List Acc × List UInt8)) : Option (Nat × Nat × List Nat) :=
  (((l.map fun x => [SysStep.controller (outside 0 5000) x.1 x.2]).foldlM (SysTx.run .ex) (sysAt 16)).toOption.map fun s =>
    (bal s.world.led 41, bal s.world.led 42, s.world.ctl.lsts.map LstState.solValue))

-- both orders go through
example : (sysBoth sysOrder).isSome ∧ sysBoth sysOrder.reverse = sysBoth sysOrder := by decide +kernel

-- so the theorem applies
example {s₁ s₂ : Sys sysc} (ht : ∀ x ∈ sysOrder, ∀ ix, decodeIx x.2 = .ok ix → ix.IsTrade)
    (h₁ : (sysOrder.map fun x => [SysStep.controller (outside 0 5000) x.1 x.2]).foldlM (SysTx.run .ex) (sysAt 16) = .ok s₁)
    (h₂ : (sysOrder.reverse.map fun x => [SysStep.controller (outside 0 5000) x.1 x.2]).foldlM (SysTx.run .ex) (sysAt 16) = .ok s₂) : s₁ = s₂ :=
  C86_system sys0_fresh rfl calcF_oneValue (onePool 5000) (List.reverse_perm _).symm ht h₁ h₂

end Ex
end S
