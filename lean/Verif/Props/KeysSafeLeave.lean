import Verif.Props.KeysSafe
import Verif.Props.Deployed

/-!
C105: nobody but the admin, the disable authorities and the programs an LST depends on can keep liquidity providers from leaving, and the instruction to leave with can be
prepared in advance. C103 through a history of the deployed system, joined with C88.
-/

set_option autoImplicit false

namespace S

/-- No committed instruction of the controller was signed by `k`. -/
def SysUnsigned {sc : SysCfg} (k : Pubkey) (es : List (SysEvent sc)) : Prop := ∀ e ∈ es, ∀ o accs ix, e.IsIx o accs ix → ¬ SignedBy accs k

section
variable {sc : SysCfg} {L : RatioLib}

/-! ### Proofs -/

theorem SysUnsigned.ctl {k : Pubkey} {s : Sys sc} {h : List (SysTx sc)} (hn : SysUnsigned k (systemEvents L s h)) :
    Unsigned k (historyEvents L s.world (ctlHistory L s h)) := by
  rw [(ctlHistory_run (L := L) s h).2]
  intro e he accs ix hx
  obtain ⟨x, hx', rfl⟩ := List.mem_map.1 he
  obtain ⟨c, hc, h1, h2⟩ := hx
  cases ha : x.act with
  | controller o acs data =>
    simp only [SysEvent.ctl, ha, SysAction.ctl, Action.call.injEq] at hc
    subst hc
    exact hn x hx' o accs ix ⟨data, by rw [ha, ← h1], h2⟩
  | _ => simp [SysEvent.ctl, ha, SysAction.ctl] at hc

theorem setup_entry {l l' : List LstState} (he : l'.map LstState.setup = l.map LstState.setup) {i : Nat} {x y : LstState} (hx : l[i]? = some x) (hy : l'[i]? = some y) :
    y.setup = x.setup := by
  have h1 : (l.map LstState.setup)[i]? = some x.setup := by rw [List.getElem?_map, hx]; rfl
  rw [← he, List.getElem?_map, hy] at h1
  exact Option.some.inj h1

theorem findFrom_setup {m : Pubkey} {l l' : List LstState} (he : l'.map LstState.setup = l.map LstState.setup) (n : Nat) :
    (findFrom (fun s => s.mint == m) n l').map (fun x => (x.1, x.2.setup)) = (findFrom (fun s => s.mint == m) n l).map (fun x => (x.1, x.2.setup)) := by
  induction l generalizing l' n with
  | nil => rw [List.map_nil, List.map_eq_nil_iff] at he; subst he; rfl
  | cons a l ih =>
    cases l' with
    | nil => cases he
    | cons a' l' =>
      simp only [List.map_cons, List.cons.injEq] at he
      have hm : a'.mint = a.mint := congrArg Prod.fst he.1
      simp only [findFrom, hm]
      split
      · simp [he.1]
      · exact ih he.2 (n + 1)

theorem resolveLiq_setup {p q : PoolState} {l l' : List LstState} (he : l'.map LstState.setup = l.map LstState.setup) (h1 : q.lpTokenMint = p.lpTokenMint)
    (h2 : q.pricingProgram = p.pricingProgram) (signer userLst userLp : Pubkey) (m : MintAcc) :
    resolveLiq sc.cfg q l' signer userLst userLp m = resolveLiq sc.cfg p l signer userLst userLp m := by
  have hf := findFrom_setup (m := m.key) he 0
  unfold resolveLiq findLst
  cases ha : findFrom (fun s => s.mint == m.key) 0 l' with
  | none =>
    cases hb : findFrom (fun s => s.mint == m.key) 0 l with
    | none => rfl
    | some y => rw [ha, hb] at hf; cases hf
  | some x =>
    cases hb : findFrom (fun s => s.mint == m.key) 0 l with
    | none => rw [ha, hb] at hf; cases hf
    | some y =>
      rw [ha, hb] at hf
      obtain ⟨i, x⟩ := x
      obtain ⟨j, y⟩ := y
      simp only [Option.map_some, Option.some.injEq, Prod.mk.injEq, LstState.setup] at hf
      obtain ⟨rfl, c1, c2, c3, c4, c5⟩ := hf
      simp only [okOr, bind, Except.bind, poolReserves, feeAccumulator, c1, c2, c4, c5, h1, h2]

/-! ### C105 -/

/-- While neither the admin nor a disable authority signs anything, a pool that is open stays open, with the same LP mint, pricing program and LSTs, in the same places,
with the same calculators: whatever the rebalance authority, the fee beneficiary, the managers of the other programs and everybody else do. -/
theorem C105_open {s₀ : Sys sc} (hf : s₀.Fresh) {h₀ h : List (SysTx sc)} {s t : Sys sc} (hs : runSystem L s₀ h₀ = s) (ht : runSystem L s h = t)
    {p : PoolState} (hp : s.world.ctl.pool = some p) (hdis : p.isDisabled = 0) (hadm : SysUnsigned p.admin (systemEvents L s h))
    (hauth : ∀ k ∈ s.world.ctl.auths, SysUnsigned k (systemEvents L s h)) :
    ∃ q, t.world.ctl.pool = some q ∧ q.isDisabled = 0 ∧ q.isRebalancing = 0 ∧ q.lpTokenMint = p.lpTokenMint ∧ q.pricingProgram = p.pricingProgram ∧
      t.world.ctl.lsts.map LstState.setup = s.world.ctl.lsts.map LstState.setup := by
  have g1 := (ctlHistory_run (L := L) s h).1
  rw [ht] at g1
  obtain ⟨q, hq, -, a2, -, -, a5, a6, -, -⟩ := C103_admin (L := L) (h := ctlHistory L s h) hp hadm.ctl
  obtain ⟨-, q', hq', hd⟩ := C103_disable (L := L) (h := ctlHistory L s h) hp hadm.ctl fun k hk => (hauth k hk).ctl
  rw [hq] at hq'; cases hq'
  rw [g1] at hq a6
  refine ⟨q, hq, hd.trans hdis, ?_, a5, a2, a6⟩
  have hr : Reachable sc.cfg L t.world := by
    have := C65_reachable (L := L) hf (h₀ ++ h)
    rw [show runSystem L s₀ (h₀ ++ h) = t by rw [← ht, ← hs]; simp [runSystem]] at this
    exact this
  obtain ⟨w₀, hw, hh, e⟩ := hr
  exact (C02_never_left_rebalancing L hw hh).2 q (by rw [← e]; exact hq)

/-- C105. The instruction to redeem, built by the client library from the pool as it was (`s`), goes through later (`t`), after any history of the deployed system in which
neither the admin nor a disable authority signs anything, if then the calculator of the LST and the pricing program work and the reserves of the LST are worth the share: the
holder has `amount` LP tokens less and at least `out.min` of the LST more. -/
theorem C105_leave {s₀ : Sys sc} (hf : s₀.Fresh) {h₀ h : List (SysTx sc)} {s t : Sys sc} (hs : runSystem L s₀ h₀ = s) (ht : runSystem L s h = t)
    {p : PoolState} (hp : s.world.ctl.pool = some p) (hdis : p.isDisabled = 0) (hadm : SysUnsigned p.admin (systemEvents L s h))
    (hauth : ∀ k ∈ s.world.ctl.auths, SysUnsigned k (systemEvents L s h))
    {i : Nat} {x : LstState} (hx : s.world.ctl.lsts[i]? = some x) (hi : i < 2 ^ 32) (hne : x.mint ≠ p.lpTokenMint)
    -- the chain at the time of leaving
    (hb : t.world.led.Backed) {o : Outside sc} (hquiet : o.other.Quiet)
    {q : PoolState} {y : LstState} (hq : t.world.ctl.pool = some q) (hy : t.world.ctl.lsts[i]? = some y)
    {m lm : Mint} (hm : t.world.led.mints x.mint = some m) (hlm : t.world.led.mints p.lpTokenMint = some lm)
    {cal : AnyCalc} (hu : cal.Usable) {calcAccs priceAccs : List Acc} (hcalc : t.CalcWorks L o x.solValueCalculator x.mint calcAccs cal)
    {bps : Nat} (hprice : t.WithdrawalFee L p.pricingProgram priceAccs bps)
    {reserves total v amount : Nat} {out : Range} (hres : ReservesAre sc.cfg t.world x reserves) (hfit : cal.Fits reserves)
    (htotal : total = q.totalSolValue - y.solValue + cal.payout reserves) (hfits : total < U64) (hv : v = amount * total / lm.supply)
    (hout : (cal.calculator L).solToLst (afterFee v bps) = .ok out) (hpos : 0 < out.min) (henough : v ≤ cal.payout reserves)
    {signer userLst userLp : Pubkey} (hamount : 0 < amount) (hh : Holder sc.cfg t.world p signer userLst userLp x.mint amount) :
    ∃ ix, removeLiquidityByMint sc.cfg p s.world.ctl.lsts ⟨signer, userLst, userLp, ⟨x.mint, m.program⟩, roMeta x.mint :: calcAccs, roMeta x.mint :: priceAccs⟩
        amount out.min = .ok ix ∧
      ∀ accs, SeenAs ix.accs accs → (∀ a ∈ accs, a.signer = true → a.key = signer) →
        ∃ t', SysTx.run L t [.controller o accs ix.data] = .ok t' ∧
          bal t'.world.led userLp + amount = bal t.world.led userLp ∧ bal t.world.led userLst + out.min ≤ bal t'.world.led userLst := by
  obtain ⟨q', hq', d1, d2, d3, d4, d5⟩ := C105_open hf hs ht hp hdis hadm hauth
  rw [hq] at hq'; cases hq'
  have hset := setup_entry d5 hx hy
  simp only [LstState.setup, Prod.mk.injEq] at hset
  obtain ⟨c1, c2, -, c4, -⟩ := hset
  have hend : runSystem L s₀ (h₀ ++ h) = t := by rw [← ht, ← hs]; simp [runSystem]
  have key := C88_redeem (L := L) (s₀ := s₀) (h := h₀ ++ h) (s := t) (o := o) hf hend hb hquiet hq d1 d2 hy hi (by rw [c1, d3]; exact hne)
    (m := m) (lm := lm) (by rw [c1]; exact hm) (by rw [d3]; exact hlm) hu (calcAccs := calcAccs) (priceAccs := priceAccs) (by rw [c1, c2]; exact hcalc)
    (bps := bps) (by rw [d4]; exact hprice) (reserves := reserves) (total := total) (v := v) (amount := amount) (out := out)
    (by obtain ⟨m', k, a, e1, e2, e3⟩ := hres; exact ⟨m', k, a, by rw [c1]; exact e1, by rw [c1, c4]; exact e2, e3⟩) hfit htotal hfits hv hout hpos henough
    (signer := signer) (userLst := userLst) (userLp := userLp) hamount
    ⟨by rw [c1]; exact hh.lst, by rw [d3]; exact hh.lp⟩
  rw [c1] at key
  simp only [removeLiquidityByMint] at key ⊢
  rw [resolveLiq_setup d5 d3 d4] at key
  exact key

end

/-! ### Not vacuous -/

namespace Ex

/-- What happens in the example's deployment after its first 16 transactions. -/
def laterTxs : List (SysTx sysc) := (sysHist.drop 16).take 3

def ctlUnsignedB (k : Pubkey) (es : List (SysEvent sysc)) : Bool := es.all fun e => match e.act with
  | .controller _ accs _ => accs.all fun a => !(a.signer && a.key == k)
  | _ => true

theorem sysUnsigned_of {k : Pubkey} {es : List (SysEvent sysc)} (h : ctlUnsignedB k es = true) : SysUnsigned k es := by
  rintro e he o accs ix ⟨data, hc, -⟩ ⟨a, ha, hs, hk⟩
  have := List.all_eq_true.1 h e he
  rw [hc] at this
  have := List.all_eq_true.1 this a ha
  simp [hs, hk] at this

theorem later_end : runSystem .ex (sysAt 16) laterTxs = sysAt 19 := by
  unfold sysAt runSystem laterTxs
  rw [← List.foldl_append]
  rfl

theorem later_pool : (sysAt 16).world.ctl.pool.map (fun p => (p.isDisabled, p.admin, p.lpTokenMint, p.pricingProgram)) = some (0, 6, 20, 7) := by decide +kernel
theorem later_lsts : (sysAt 16).world.ctl.lsts.map LstState.setup = (sysAt 19).world.ctl.lsts.map LstState.setup ∧
    (sysAt 16).world.ctl.lsts.map (·.mint) = [21, 22] ∧ (sysAt 16).world.ctl.lsts.map (·.solValueCalculator) = [31, 32] ∧ (sysAt 16).world.ctl.auths = [] := by decide +kernel
theorem later_events : (systemEvents .ex (sysAt 16) laterTxs).length = 2 ∧ ctlUnsignedB 6 (systemEvents .ex (sysAt 16) laterTxs) = true := by decide +kernel

/-- Prepared after 16 transactions, sent after 19: half of the LP tokens for wrapped SOL. -/
example : ∃ p ix, (sysAt 16).world.ctl.pool = some p ∧
    removeLiquidityByMint cfg p (sysAt 16).world.ctl.lsts ⟨40, 41, 43, ⟨21, 8⟩, [roMeta 21], [roMeta 21, roMeta 300]⟩ 30000 29931 = .ok ix ∧
    ∀ accs, SeenAs ix.accs accs → (∀ a ∈ accs, a.signer = true → a.key = (40 : Pubkey)) →
      ∃ t', SysTx.run .ex (sysAt 19) [.controller (outside 0 5000) accs ix.data] = .ok t' ∧
        bal t'.world.led 43 + 30000 = bal (sysAt 19).world.led 43 ∧ bal (sysAt 19).world.led 41 + 29931 ≤ bal t'.world.led 41 := by
  obtain ⟨p, hp, e⟩ := of_map later_pool
  simp only [Prod.mk.injEq] at e
  obtain ⟨e1, e2, e3, e4⟩ := e
  obtain ⟨q, hq, f⟩ := of_map leaving_pool
  simp only [Prod.mk.injEq] at f
  obtain ⟨m0, m1, m2⟩ := leaving_mints
  obtain ⟨t1, t2, t3⟩ := leaving_toks
  have hr := leaving_res
  obtain ⟨a, b, hls, ha, hb⟩ := two_of leaving_lsts
  simp only [Prod.mk.injEq] at ha hb
  obtain ⟨l1, l2, l3, l4⟩ := later_lsts
  obtain ⟨x, y, hxs, hx1, hy1⟩ := two_of l2
  rw [hls] at hr l1
  rw [hxs] at l1 l3
  simp only [List.map_cons, List.map_nil, List.cons.injEq, and_true] at hr l1 l3
  have hxa := l1.1
  simp only [LstState.setup, Prod.mk.injEq] at hxa
  obtain ⟨ix, h1, h2⟩ := C105_leave (L := .ex) (s₀ := sys0) (h₀ := sysHist.take 16) (h := laterTxs) (s := sysAt 16) (t := sysAt 19) sys0_fresh rfl later_end hp e1
    (by rw [e2]; exact sysUnsigned_of later_events.2) (by rw [l4]; simp) (i := 0) (x := x) (by rw [hxs]; rfl) (by decide) (by rw [hx1, e3]; decide)
    (sysAt_backed 19) (o := outside 0 5000) Env.pure_quiet hq (y := a) (by rw [hls]; rfl) (m := ⟨8, 1000000, 9, none, none⟩) (by rw [hx1]; exact m1)
    (by rw [e3]; exact m0) (cal := .wsol) True.intro (calcAccs := []) (priceAccs := [roMeta 300]) (.inl ⟨l3.1, hx1, rfl, rfl⟩) (bps := 25)
    (.inl ⟨e4, rfl, _, leaving_flat.1, rfl⟩) (reserves := 36008) (total := 60014) (v := 30007) (amount := 30000) (out := ⟨29931, 29931⟩)
    (reservesAre (by rw [hx1]; exact m1) (by rw [hxa.1, hxa.2.2.2.1]; exact hr.1)) trivial (by rw [f.1, ha.2.1]; rfl) (by decide) (by decide) (by rfl) (by decide) (by decide)
    (signer := 40) (userLst := 41) (userLp := 43) (by decide)
    ⟨⟨_, by rw [hx1]; exact wallet t1 m1 rfl rfl rfl⟩, _, by rw [e3]; exact wallet t3 m0 rfl rfl rfl, rfl, by decide⟩
  rw [hx1] at h1
  dsimp only at h1 h2
  exact ⟨p, ix, hp, h1, h2⟩

end Ex
end S
