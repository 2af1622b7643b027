import Verif.Props.Impact
import Verif.Props.Recorded
import Verif.Props.Trades
import Mathlib.Algebra.BigOperators.Group.List.Basic
/-
C86: the order of swaps and syncs does not matter.
-/
set_option autoImplicit false
namespace S

/-! ### Specification -/

/-- A swap or a sync. -/
def Ix.IsTrade : Ix → Prop
  | .swapExactIn _ => True
  | .swapExactOut _ => True
  | .syncSolValue _ => True
  | _ => False

/-- A transaction that consists of one instruction of the controller with the given accounts and data. -/
def tradeTx (cfg : Cfg) (f : Pubkey → List Acc → CalcReq → R Range) (g : Pubkey → List Acc → PriceReq → R Nat) (x : List Acc × List UInt8) : Tx cfg :=
  [.controller ⟨.pure cfg f g, x.1, x.2⟩]

/-- What a calculator answers about an LST and an amount does not depend on which further accounts it is passed, as long as it answers. -/
def OneValue (f : Pubkey → List Acc → CalcReq → R Range) : Prop :=
  ∀ {p mint : Pubkey} {rest rest' : List Acc} {q : CalcReq} {r r' : Range}, f p (⟨mint, false, false⟩ :: rest) q = .ok r →
    f p (⟨mint, false, false⟩ :: rest') q = .ok r' → r = r'

/-! ### Proofs -/

section
variable {cfg : Cfg} {L : RatioLib} {f : Pubkey → List Acc → CalcReq → R Range} {g : Pubkey → List Acc → PriceReq → R Nat}

/-- One trade that went through. -/
def Acts (cfg : Cfg) (L : RatioLib) (f : Pubkey → List Acc → CalcReq → R Range) (g : Pubkey → List Acc → PriceReq → R Nat) (x : List Acc × List UInt8)
    (w w' : World) : Prop :=
  ∃ ix tx, decodeIx x.2 = .ok ix ∧ ix.IsTrade ∧ processIx cfg L (.pure cfg f g) tx w x.1 ix = .ok w'

def tradeLsts (x : List Acc × List UInt8) : List Nat :=
  match decodeIx x.2 with
  | .ok ix => ix.userIndices.getD []
  | .error _ => []

def bpsOf (w : World) : Option Nat := w.ctl.pool.map PoolState.tradingProtocolFeeBps

theorem transfer_rest {l l' : Ledger} {t : TransferAccs} {n : Nat} (h : transfer l t n = .ok l') :
    l'.exec = l.exec ∧ ∀ k a, l.tok k = some a → a.mint ≠ t.mint → l'.tok k = some a := by
  obtain ⟨m, a, b, hf⟩ := transfer_ok.1 h
  rcases hf.eq with ⟨_, rfl⟩ | ⟨_, _, rfl⟩
  · exact ⟨rfl, fun _ _ h _ => h⟩
  · refine ⟨rfl, fun k x hx hm => ?_⟩
    have h1 : k ≠ t.src := by rintro rfl; rw [hf.src] at hx; cases hx; exact hm hf.amint
    have h2 : k ≠ t.dst := by rintro rfl; rw [hf.dst] at hx; cases hx; exact hm hf.bmint
    simp only [Ledger.setTok, upd_ne _ _ h1, upd_ne _ _ h2, hx]

theorem SwapRun.rest {env : Env cfg} {w w' : World} {accs : List Acc} {na nb i j x y : Nat} (r : SwapRun L env w accs na nb i j x y w') (hq : env.Quiet)
    (h5 : r.l5 = w.led) : w'.led.exec = w.led.exec ∧ ∀ k a, w.led.tok k = some a → a.mint ≠ r.src.mint → a.mint ≠ r.dst.mint → w'.led.tok k = some a := by
  have el : w'.led = r.fin.l3 := (r.fin.sync6.quiet hq).trans (r.fin.sync5.quiet hq)
  obtain ⟨e1, t1⟩ := transfer_rest r.fin.t1
  obtain ⟨e2, t2⟩ := transfer_rest r.fin.t2
  obtain ⟨e3, t3⟩ := transfer_rest r.fin.t3
  dsimp only at e1 t1 t2 t3
  rw [el, ← h5]
  refine ⟨e3.trans (e2.trans e1), fun k a ha hs hd => ?_⟩
  rw [r.ver.srcSel.mint_eq] at hs
  rw [r.ver.dstSel.mint_eq] at hd
  exact t3 k a (t2 k a (t1 k a ha hs) hd) hd

/-- What a trade that went through does to the world. -/
structure TradeStep (cfg : Cfg) (f : Pubkey → List Acc → CalcReq → R Range) (g : Pubkey → List Acc → PriceReq → R Nat) (w w' : World) (is : List Nat) :
    Prop where
  pool : ∃ p t, w.ctl.pool = some p ∧ w'.ctl.pool = some { p with totalSolValue := t }
  lsts : ∀ j : Nat, (w'.ctl.lsts[j]?).map (fun s : LstState => { s with solValue := 0 }) = (w.ctl.lsts[j]?).map (fun s : LstState => { s with solValue := 0 })
  others : ∀ j : Nat, j ∉ is → w'.ctl.lsts[j]? = w.ctl.lsts[j]?
  auths : w'.ctl.auths = w.ctl.auths
  rebal : w'.ctl.rebal = w.ctl.rebal
  mints : w'.led.mints = w.led.mints
  exec : w'.led.exec = w.led.exec
  accounts : SameAccounts w.led w'.led
  recorded : ∀ j ∈ is, RecordedAt (.pure cfg f g) w' j
  reserves : ∀ (j : Nat) (s : LstState) (k : Pubkey), j ∉ is → w.ctl.lsts[j]? = some s → IsReserves cfg w s k → bal w'.led k = bal w.led k

theorem IsReserves.of_mints {w w' : World} {s : LstState} {k : Pubkey} (h : IsReserves cfg w s k) (hm : w'.led.mints = w.led.mints) :
    IsReserves cfg w' s k := by
  obtain ⟨m, h1, h2⟩ := h
  exact ⟨m, by rw [hm]; exact h1, h2⟩

theorem SwapRun.keeps {env : Env cfg} {w w' : World} {accs : List Acc} {na nb i j x y : Nat} (r : SwapRun L env w accs na nb i j x y w') (hq : env.Quiet)
    (h5 : r.l5 = w.led) (hi : Inv cfg w) (n : Nat) (s : LstState) (k : Pubkey) (hn : n ∉ [i, j]) (hs : w.ctl.lsts[n]? = some s)
    (hk : IsReserves cfg w s k) : bal w'.led k = bal w.led k := by
  obtain ⟨m, res, acc, ra, fa, ha⟩ := hi.accs s (List.mem_of_getElem? hs)
  obtain ⟨m', hm', hres⟩ := hk
  have e1 := hm'.symm.trans ha.mint; cases e1
  have e2 := hres.symm.trans ha.res_key; cases e2
  simp only [List.mem_cons, List.not_mem_nil, or_false, not_or] at hn
  have h1 : ra.mint ≠ r.src.mint := by
    rw [ha.ra_mint]; exact fun h => hn.1 (mint_index hi.ctl.mints hs r.ver.srcSel.get h)
  have h2 : ra.mint ≠ r.dst.mint := by
    rw [ha.ra_mint]; exact fun h => hn.2 (mint_index hi.ctl.mints hs r.ver.dstSel.get h)
  rw [bal_some ((r.rest hq h5).2 _ _ ha.res h1 h2), bal_some ha.res]

theorem Acts.step {x : List Acc × List UInt8} {w w' : World} (h : Acts cfg L f g x w w') (hr : Reachable cfg L w) :
    TradeStep cfg f g w w' (tradeLsts x) := by
  obtain ⟨ix, tx, hd, ht, h⟩ := h
  have hq := Env.pure_quiet (cfg := cfg) (calcF := f) (priceF := g)
  have hi := hr.inv
  have hrec := C55_recorded hr hq h
  have hl : tradeLsts x = ix.userIndices.getD [] := by simp only [tradeLsts, hd]
  cases ix with
  | swapExactIn args =>
    obtain ⟨h1, h2, h3, h4, h5⟩ := C47_user_instructions h rfl
    obtain ⟨out, ⟨r⟩⟩ := processSwapExactIn_inv h
    have e5 : r.l5 = w.led :=
      (hq.calcF r.ask4).trans ((hq.priceF r.ask3).trans ((hq.calcF r.ask2).trans ((r.sync1.quiet hq).trans (r.sync0.quiet hq))))
    have mv := r.toSwapRun.moves hq e5
    rw [hl]
    exact ⟨h1, h2, h3, h4, h5, mv.mints, (r.toSwapRun.rest hq e5).1, mv.accounts, hrec, r.toSwapRun.keeps hq e5 hi⟩
  | swapExactOut args =>
    obtain ⟨h1, h2, h3, h4, h5⟩ := C47_user_instructions h rfl
    obtain ⟨out, ⟨r⟩⟩ := processSwapExactOut_inv h
    have e5 : r.l5 = w.led :=
      (hq.calcF r.ask4).trans ((hq.priceF r.ask3).trans ((hq.calcF r.ask2).trans ((r.sync1.quiet hq).trans (r.sync0.quiet hq))))
    have mv := r.toSwapRun.moves hq e5
    rw [hl]
    exact ⟨h1, h2, h3, h4, h5, mv.mints, (r.toSwapRun.rest hq e5).1, mv.accounts, hrec, r.toSwapRun.keeps hq e5 hi⟩
  | syncSolValue i =>
    obtain ⟨h1, h2, h3, h4, h5⟩ := C47_user_instructions h rfl
    obtain ⟨r⟩ := processSync_inv h
    have el := r.run.quiet hq
    rw [hl]
    refine ⟨h1, h2, h3, h4, h5, by rw [el], by rw [el], by rw [el]; exact .refl _, hrec, fun _ _ _ _ _ _ => by rw [el]⟩
  | _ => exact ht.elim

/-- What a trade moves is fixed by the instruction and the fee rate. -/
theorem Acts.same {x : List Acc × List UInt8} {w₁ w₁' w₂ w₂' : World} (h₁ : Acts cfg L f g x w₁ w₁') (h₂ : Acts cfg L f g x w₂ w₂')
    (hb : bpsOf w₁ = bpsOf w₂) (k : Pubkey) : (bal w₁'.led k : Int) - bal w₁.led k = (bal w₂'.led k : Int) - bal w₂.led k := by
  obtain ⟨ix, tx₁, hd, ht, h₁⟩ := h₁
  obtain ⟨ix', tx₂, hd', _, h₂⟩ := h₂
  rw [hd] at hd'; cases hd'
  have hq := Env.pure_quiet (cfg := cfg) (calcF := f) (priceF := g)
  cases ix with
  | swapExactIn args =>
    obtain ⟨out, fee₁, fee₂, p₁, p₂, ⟨src, dst, signer, srcAcc, dstAcc, feeAcc, srcRes, dstRes, m₁⟩,
      ⟨src', dst', signer', srcAcc', dstAcc', feeAcc', srcRes', dstRes', m₂⟩, hf⟩ := C78_swapExactIn h₁ h₂ ⟨rfl, rfl, rfl⟩ rfl ⟨rfl, rfl⟩
    rw [bpsOf, bpsOf, m₁.pool, m₂.pool] at hb
    obtain rfl := hf (by simpa using hb)
    have q3 := m₂.pos3; rw [m₁.pos3] at q3; cases q3
    have q4 := m₂.pos4; rw [m₁.pos4] at q4; cases q4
    have q5 := m₂.pos5; rw [m₁.pos5] at q5; cases q5
    have q10 := m₂.pos10; rw [m₁.pos10] at q10; cases q10
    have q11 := m₂.pos11; rw [m₁.pos11] at q11; cases q11
    have a := m₁.moves k
    have b := m₂.moves k
    omega
  | swapExactOut args =>
    obtain ⟨out, fee₁, fee₂, p₁, p₂, ⟨src, dst, signer, srcAcc, dstAcc, feeAcc, srcRes, dstRes, m₁⟩,
      ⟨src', dst', signer', srcAcc', dstAcc', feeAcc', srcRes', dstRes', m₂⟩, hf⟩ := C78_swapExactOut h₁ h₂ ⟨rfl, rfl, rfl⟩ rfl ⟨rfl, rfl⟩
    rw [bpsOf, bpsOf, m₁.pool, m₂.pool] at hb
    obtain rfl := hf (by simpa using hb)
    have q3 := m₂.pos3; rw [m₁.pos3] at q3; cases q3
    have q4 := m₂.pos4; rw [m₁.pos4] at q4; cases q4
    have q5 := m₂.pos5; rw [m₁.pos5] at q5; cases q5
    have q10 := m₂.pos10; rw [m₁.pos10] at q10; cases q10
    have q11 := m₂.pos11; rw [m₁.pos11] at q11; cases q11
    have a := m₁.moves k
    have b := m₂.moves k
    omega
  | syncSolValue i =>
    obtain ⟨r₁⟩ := processSync_inv h₁
    obtain ⟨r₂⟩ := processSync_inv h₂
    rw [r₁.run.quiet hq, r₂.run.quiet hq]; omega
  | _ => exact ht.elim

open Classical in
/-- What a trade adds to the balance of an account, at a fee rate. -/
noncomputable def tradeDelta (cfg : Cfg) (L : RatioLib) (f : Pubkey → List Acc → CalcReq → R Range) (g : Pubkey → List Acc → PriceReq → R Nat) (b : Option Nat)
    (k : Pubkey) (x : List Acc × List UInt8) : Int :=
  if h : ∃ w w', bpsOf w = b ∧ Acts cfg L f g x w w' then (bal h.choose_spec.choose.led k : Int) - bal h.choose.led k else 0

theorem Acts.delta {x : List Acc × List UInt8} {w w' : World} (h : Acts cfg L f g x w w') (k : Pubkey) :
    (bal w'.led k : Int) = bal w.led k + tradeDelta cfg L f g (bpsOf w) k x := by
  have hex : ∃ w₁ w₁', bpsOf w₁ = bpsOf w ∧ Acts cfg L f g x w₁ w₁' := ⟨w, w', rfl, h⟩
  have hs := hex.choose_spec.choose_spec
  have := Acts.same h hs.2 hs.1.symm k
  rw [tradeDelta, dif_pos hex]
  omega

/-- What a sequence of trades that went through does to the world. -/
structure Net (cfg : Cfg) (L : RatioLib) (f : Pubkey → List Acc → CalcReq → R Range) (g : Pubkey → List Acc → PriceReq → R Nat) (w w' : World)
    (l : List (List Acc × List UInt8)) : Prop where
  reach : Reachable cfg L w'
  pool : w.ctl.pool ≠ none → ∃ p t, w.ctl.pool = some p ∧ w'.ctl.pool = some { p with totalSolValue := t }
  noPool : w.ctl.pool = none → l = [] ∧ w' = w
  lsts : ∀ j : Nat, (w'.ctl.lsts[j]?).map (fun s : LstState => { s with solValue := 0 }) = (w.ctl.lsts[j]?).map (fun s : LstState => { s with solValue := 0 })
  others : ∀ j : Nat, j ∉ l.flatMap tradeLsts → w'.ctl.lsts[j]? = w.ctl.lsts[j]?
  auths : w'.ctl.auths = w.ctl.auths
  rebal : w'.ctl.rebal = w.ctl.rebal
  mints : w'.led.mints = w.led.mints
  exec : w'.led.exec = w.led.exec
  accounts : SameAccounts w.led w'.led
  recorded : ∀ j ∈ l.flatMap tradeLsts, RecordedAt (.pure cfg f g) w' j
  reserves : ∀ (j : Nat) (s : LstState) (k : Pubkey), j ∉ l.flatMap tradeLsts → w.ctl.lsts[j]? = some s → IsReserves cfg w s k →
    bal w'.led k = bal w.led k
  balances : ∀ k, (bal w'.led k : Int) = bal w.led k + (l.map (tradeDelta cfg L f g (bpsOf w) k)).sum

theorem TradeStep.bps {w w' : World} {is : List Nat} (h : TradeStep cfg f g w w' is) : bpsOf w' = bpsOf w := by
  obtain ⟨p, t, h1, h2⟩ := h.pool
  rw [bpsOf, bpsOf, h1, h2]; rfl

theorem Reachable.step {w w' : World} {t : Tx cfg} (hr : Reachable cfg L w) (h : Tx.run L w t = .ok w') : Reachable cfg L w' := by
  obtain ⟨w₀, hf, hs, rfl⟩ := hr
  refine ⟨w₀, hf, hs ++ [t], ?_⟩
  rw [runHistory, List.foldl_append]
  show w' = Tx.apply L (runHistory L w₀ hs) t
  rw [Tx.apply, h]

theorem net {l : List (List Acc × List UInt8)} : ∀ {w w' : World}, Reachable cfg L w → (∀ x ∈ l, ∀ ix, decodeIx x.2 = .ok ix → ix.IsTrade) →
    (l.map (tradeTx cfg f g)).foldlM (Tx.run L) w = .ok w' → Net cfg L f g w w' l := by
  induction l with
  | nil =>
    intro w w' hr _ h
    cases h
    exact ⟨hr, fun hp => (Option.ne_none_iff_exists'.1 hp).elim fun p hp => ⟨p, p.totalSolValue, hp, hp⟩, fun _ => ⟨rfl, rfl⟩, fun _ => rfl, fun _ _ => rfl,
      rfl, rfl, rfl, rfl, .refl _, fun _ h => by simp at h, fun _ _ _ _ _ _ => rfl, fun _ => by simp⟩
  | cons x l ih =>
    intro w w' hr ht h
    simp only [List.map_cons, List.foldlM_cons, bind_ok] at h
    obtain ⟨w₁, h1, h2⟩ := h
    have hr1 := hr.step h1
    have n := ih hr1 (fun y hy => ht y (List.mem_cons_of_mem _ hy)) h2
    have ha : Acts cfg L f g x w w₁ := by
      simp only [Tx.run, tradeTx, List.map_cons, List.map_nil, runSteps, Step.run, bind_ok] at h1
      obtain ⟨_, h1, h1'⟩ := h1
      cases h1'
      obtain ⟨_, ix, hd, hp⟩ := Call.run_ok h1
      exact ⟨ix, _, hd, ht x (List.mem_cons_self ..) ix hd, hp⟩
    have s := ha.step hr
    obtain ⟨p, t, hp, hp1⟩ := s.pool
    refine ⟨n.reach, fun _ => ?_, fun h0 => (by rw [h0] at hp; cases hp), fun j => (n.lsts j).trans (s.lsts j), fun j hj => ?_, n.auths.trans s.auths,
      n.rebal.trans s.rebal, n.mints.trans s.mints, n.exec.trans s.exec, s.accounts.trans n.accounts, fun j hj => ?_, fun j st k hj hs hk => ?_, fun k => ?_⟩
    · obtain ⟨q, t', hq, hq'⟩ := n.pool (by rw [hp1]; simp)
      rw [hp1] at hq; cases hq
      exact ⟨p, t', hp, hq'⟩
    · simp only [List.flatMap_cons, List.mem_append, not_or] at hj
      exact (n.others j hj.2).trans (s.others j hj.1)
    · simp only [List.flatMap_cons, List.mem_append] at hj
      by_cases hl : j ∈ l.flatMap tradeLsts
      · exact n.recorded j hl
      · obtain ⟨st, k, h1, h2, m, w₀, rest, r, l', h3, h4⟩ := s.recorded j (hj.resolve_right hl)
        refine ⟨st, k, (n.others j hl).trans h1, h2.of_mints n.mints, m, w₀, rest, r, l', ?_, h4⟩
        rw [n.reserves j st k hl h1 h2]; exact h3
    · simp only [List.flatMap_cons, List.mem_append, not_or] at hj
      rw [n.reserves j st k hj.2 ((s.others j hj.1).trans hs) (hk.of_mints s.mints), s.reserves j st k hj.1 hs hk]
    · rw [n.balances k, ha.delta k, s.bps, List.map_cons, List.sum_cons, add_assoc]

/-- C86: take any swaps and syncs, by anyone, each in its own transaction, and let them all go through in some order. If they all go through in another
order, too, then that order leads to exactly the same state of the pool and of all token accounts: nobody gains or loses by the order in which trades
are executed. (Calculators and pricing programs answer by the request, and calculators the same whichever accounts they are passed.) -/
theorem C86_order {w w₁ w₂ : World} {l₁ l₂ : List (List Acc × List UInt8)} (hr : Reachable cfg L w) (hv : OneValue f) (hp : l₁.Perm l₂)
    (ht : ∀ x ∈ l₁, ∀ ix, decodeIx x.2 = .ok ix → ix.IsTrade) (h₁ : (l₁.map (tradeTx cfg f g)).foldlM (Tx.run L) w = .ok w₁)
    (h₂ : (l₂.map (tradeTx cfg f g)).foldlM (Tx.run L) w = .ok w₂) : w₁ = w₂ := by
  have n₁ := net hr ht h₁
  have n₂ := net hr (fun x hx => ht x (hp.mem_iff.2 hx)) h₂
  have hb : ∀ k, bal w₁.led k = bal w₂.led k := by
    intro k
    have := (n₁.balances k).trans (by rw [(hp.map _).sum_eq, ← n₂.balances k])
    exact_mod_cast this
  have hlst : w₁.ctl.lsts = w₂.ctl.lsts := by
    apply List.ext_getElem?
    intro j
    by_cases hj : j ∈ l₁.flatMap tradeLsts
    · obtain ⟨s₁, k₁, a1, a2, m1, v1, rest1, r1, l1', a3, a4⟩ := n₁.recorded j hj
      obtain ⟨s₂, k₂, b1, b2, m2, v2, rest2, r2, l2', b3, b4⟩ := n₂.recorded j ((hp.flatMap_right tradeLsts).mem_iff.1 hj)
      have e := (n₁.lsts j).trans (n₂.lsts j).symm
      rw [a1, b1] at e ⊢
      obtain ⟨d₁, x₁, y₁, v₁, mi₁, ca₁⟩ := s₁
      obtain ⟨d₂, x₂, y₂, v₂, mi₂, ca₂⟩ := s₂
      simp only [Option.map_some, Option.some.injEq, LstState.mk.injEq] at e
      obtain ⟨rfl, rfl, rfl, _, rfl, rfl⟩ := e
      obtain ⟨m, hm, hk⟩ := a2
      obtain ⟨m', hm', hk'⟩ := b2
      rw [n₁.mints] at hm
      rw [n₂.mints, hm] at hm'; cases hm'
      dsimp only at hk hk' a3 b3 a4 b4
      rw [hk] at hk'; cases hk'
      rw [hb] at a3
      have := hv (Env.pure_calc.1 a3).1 (Env.pure_calc.1 b3).1
      rw [a4, b4, this]
    · rw [n₁.others j hj, n₂.others j (fun h => hj ((hp.flatMap_right tradeLsts).mem_iff.2 h))]
  have hpool : w₁.ctl.pool = w₂.ctl.pool := by
    by_cases h0 : w.ctl.pool = none
    · rw [(n₁.noPool h0).2, (n₂.noPool h0).2]
    · obtain ⟨p, t, a, b⟩ := n₁.pool h0
      obtain ⟨p', t', a', b'⟩ := n₂.pool h0
      rw [a] at a'; cases a'
      have c := n₁.reach.inv.ctl.total _ b
      have c' := n₂.reach.inv.ctl.total _ b'
      dsimp only at c c'
      rw [b, b', c, c', hlst]
  have htok : w₁.led.tok = w₂.led.tok := by
    funext k
    have e := (n₁.accounts k).trans (n₂.accounts k).symm
    have b := hb k
    unfold bal at b
    cases hk : w₁.led.tok k with
    | none => rw [hk] at e; cases hk' : w₂.led.tok k with
      | none => rfl
      | some y => rw [hk'] at e; cases e
    | some y => rw [hk] at e b; cases hk' : w₂.led.tok k with
      | none => rw [hk'] at e; cases e
      | some z =>
        rw [hk'] at e b
        obtain ⟨y1, y2, y3, y4⟩ := y
        obtain ⟨z1, z2, z3, z4⟩ := z
        simp only [Option.map_some, Option.some.injEq, Prod.mk.injEq] at e
        obtain ⟨rfl, rfl, rfl⟩ := e
        dsimp only [Option.elim] at b
        rw [b]
  obtain ⟨⟨pa, la, aa, ra⟩, ⟨ta, ma, ea⟩⟩ := w₁
  obtain ⟨⟨pb, lb, ab, rb⟩, ⟨tb, mb, eb⟩⟩ := w₂
  have h1 := n₁.auths.trans n₂.auths.symm
  have h2 := n₁.rebal.trans n₂.rebal.symm
  have h3 := n₁.mints.trans n₂.mints.symm
  have h4 := n₁.exec.trans n₂.exec.symm
  dsimp only at hpool hlst htok h1 h2 h3 h4
  subst hpool hlst htok h1 h2 h3 h4
  rfl

end

/-! ### Examples -/
namespace Ex

theorem calcF_oneValue : OneValue calcF := fun h h' => by
  have := h.symm.trans h'
  injection this

/-- Two swaps of 3000 and 2000, one back, and a sync. -/
def orderTrades : List (List Acc × List UInt8) :=
  [(swapAB, (Ix.swapExactIn ⟨1, 1, 0, 1, 10, 3000⟩).encode), (swapAB, (Ix.swapExactOut ⟨1, 1, 0, 1, 5000, 2000⟩).encode),
   (swapBA, (Ix.swapExactIn ⟨1, 1, 1, 0, 10, 700⟩).encode), ([ro 21, rw 1, rw 2, ro resA, ro 31], (Ix.syncSolValue 0).encode)]

example : ∀ x ∈ orderTrades, ∀ ix, decodeIx x.2 = .ok ix → ix.IsTrade := by
  intro x hx ix h
  simp only [orderTrades, List.mem_cons, List.not_mem_nil, or_false] at hx
  rcases hx with rfl | rfl | rfl | rfl
  · have e : decodeIx (Ix.swapExactIn ⟨1, 1, 0, 1, 10, 3000⟩).encode = .ok (Ix.swapExactIn ⟨1, 1, 0, 1, 10, 3000⟩) := by decide +kernel
    rw [show ix = _ from Except.ok.inj (h.symm.trans e)]; trivial
  · have e : decodeIx (Ix.swapExactOut ⟨1, 1, 0, 1, 5000, 2000⟩).encode = .ok (Ix.swapExactOut ⟨1, 1, 0, 1, 5000, 2000⟩) := by decide +kernel
    rw [show ix = _ from Except.ok.inj (h.symm.trans e)]; trivial
  · have e : decodeIx (Ix.swapExactIn ⟨1, 1, 1, 0, 10, 700⟩).encode = .ok (Ix.swapExactIn ⟨1, 1, 1, 0, 10, 700⟩) := by decide +kernel
    rw [show ix = _ from Except.ok.inj (h.symm.trans e)]; trivial
  · have e : decodeIx (Ix.syncSolValue 0).encode = .ok (Ix.syncSolValue 0) := by decide +kernel
    rw [show ix = _ from Except.ok.inj (h.symm.trans e)]; trivial

-- they go through in this order and backwards, and the wallets and the recorded values end up the same
example : ((orderTrades.map (tradeTx cfg calcF priceF)).foldlM (Tx.run .ex) (st 5)).toOption.map (fun w => (bal w.led 41, bal w.led 42, w.ctl.lsts.map LstState.solValue)) =
    ((orderTrades.reverse.map (tradeTx cfg calcF priceF)).foldlM (Tx.run .ex) (st 5)).toOption.map (fun w => (bal w.led 41, bal w.led 42, w.ctl.lsts.map LstState.solValue)) ∧
    (((orderTrades.map (tradeTx cfg calcF priceF)).foldlM (Tx.run .ex) (st 5)).toOption.map fun w => (bal w.led 41, bal w.led 42)) = some (965008, 983280) := by
  decide +kernel

end Ex
end S
