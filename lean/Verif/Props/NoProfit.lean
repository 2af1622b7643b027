import Verif.Props.LpPrice
import Mathlib.Tactic.Ring
import Mathlib.Data.List.Dedup
/-
C52: trading with the pool, in any number of instructions and combinations, brings its users no profit.
-/
set_option autoImplicit false
namespace S

/-! ### Specification -/

/-- The instructions open to everyone. -/
def Ix.IsUser : Ix → Prop
  | .syncSolValue _ => True
  | .swapExactIn _ => True
  | .swapExactOut _ => True
  | .addLiquidity _ => True
  | .removeLiquidity _ => True
  | _ => False

/-- Address of the pool's reserves of LST `s`. -/
def reservesKey (cfg : Cfg) (w : World) (s : LstState) : Pubkey :=
  ((w.led.mints s.mint).bind fun m => cfg.ata cfg.poolState m.program s.mint s.poolReservesBump).getD 0

/-- Address of the protocol fee accumulator of LST `s`. -/
def feesKey (cfg : Cfg) (w : World) (s : LstState) : Pubkey :=
  ((w.led.mints s.mint).bind fun m => cfg.ata cfg.protocolFee m.program s.mint s.protocolFeeAccumulatorBump).getD 0

/-- The pool's token accounts. -/
def poolKeys (cfg : Cfg) (w : World) : List Pubkey :=
  w.ctl.lsts.map (reservesKey cfg w) ++ w.ctl.lsts.map (feesKey cfg w)

/-- The LP mint. -/
def lpMintOf (w : World) : Pubkey := (w.ctl.pool).elim 0 PoolState.lpTokenMint

/-- What the tokens in account `k` are worth when a token of mint `m` is worth `rate m`. -/
def worth (rate : Pubkey → Rat) (l : Ledger) (k : Pubkey) : Rat := (l.tok k).elim 0 fun a => rate a.mint * a.amount

/-- What the users' accounts `us` are worth: LP tokens at the pool's price for them, other tokens at `rate`. -/
def wealth (rate : Pubkey → Rat) (w : World) (us : List Pubkey) : Rat :=
  (us.map (worth (fun m => if m = lpMintOf w then lpPrice w else rate m) w.led)).sum

/-- LP tokens held elsewhere. -/
def othersLp (w : World) (us : List Pubkey) : Rat := lpSupply w - ((us.map (balOf w.led (lpMintOf w))).sum : Nat)

/-- What the reserves are worth beyond the recorded total: gains of LSTs not yet recorded, fractions of lamports. -/
def gap (cfg : Cfg) (rate : Pubkey → Rat) (w : World) : Rat :=
  (w.ctl.lsts.map fun s => rate s.mint * bal w.led (reservesKey cfg w s)).sum - totalOf w

/-- From `l` to `l'` tokens only move among the accounts `ks`, or LP tokens of theirs are burnt: per mint, what they hold together changes by the change of the supply,
and only the LP supply changes. Transfers among them do this, to the pool's reserves (gifts) included, and so do their trades with each other elsewhere. -/
def MovesAmong (lp : Pubkey) (ks : List Pubkey) (l l' : Ledger) : Prop :=
  ∀ m, (ks.map (balOf l' m)).sum + supplyOf l m = (ks.map (balOf l m)).sum + supplyOf l' m ∧ (m ≠ lp → supplyOf l' m = supplyOf l m)

/-- The events of users: calls of their instructions, with called programs that move no tokens, on the accounts `ks`; and whatever else moves tokens among these
accounts only. -/
def UserEvents (cfg : Cfg) (ks : List Pubkey) (es : List (Event cfg)) : Prop :=
  ∀ e ∈ es, (∃ c ix, e.act = .call c ∧ c.env.Quiet ∧ decodeIx c.data = .ok ix ∧ ix.IsUser ∧ ∀ a ∈ c.accs, a.key ∈ ks) ∨
    ((∀ c, e.act ≠ .call c) ∧ MovesAmong (lpMintOf e.pre) ks e.pre.led e.post.led)

/-! ### Proof -/

theorem sum_by_mint {M : List Pubkey} (hM : M.Nodup) (rate : Pubkey → Rat) (l : Ledger) (ks : List Pubkey)
    (hk : ∀ k ∈ ks, ∀ a, l.tok k = some a → a.mint ∈ M) :
    (ks.map (worth rate l)).sum = (M.map fun m => rate m * ((ks.map (balOf l m)).sum : Nat)).sum := by
  have one : ∀ (x : Rat) (n : Nat) (m : Pubkey) (M : List Pubkey), M.Nodup → m ∈ M →
      (M.map fun m' => rate m' * ((if m = m' then n else 0 : Nat) : Rat)).sum = rate m * n := by
    intro x n m M hM hm
    induction M with
    | nil => cases hm
    | cons m' M ih =>
      obtain ⟨h1, h2⟩ := List.nodup_cons.1 hM
      simp only [List.map_cons, List.sum_cons]
      by_cases e : m = m'
      · subst e
        have : (M.map fun m' => rate m' * ((if m = m' then n else 0 : Nat) : Rat)) = M.map fun _ => 0 := by
          refine List.map_congr_left fun m' hm' => ?_
          rw [if_neg (by rintro rfl; exact h1 hm')]; simp
        rw [this]; simp
      · rw [if_neg e, ih h2 ((List.mem_cons.1 hm).resolve_left e)]; simp
  have key : ∀ k ∈ ks, worth rate l k = (M.map fun m => rate m * (balOf l m k : Rat)).sum := by
    intro k hk'
    unfold worth balOf
    cases ht : l.tok k with
    | none => simp
    | some a =>
      simp only [Option.elim]
      rw [one 0 a.amount a.mint M hM (hk k hk' a ht)]
  clear hk
  induction ks with
  | nil => simp
  | cons k ks ih =>
    simp only [List.map_cons, List.sum_cons]
    rw [key k List.mem_cons_self, ih fun k hk => key k (List.mem_cons_of_mem _ hk)]
    clear key ih hM one
    induction M with
    | nil => simp
    | cons m M ih =>
      simp only [List.map_cons, List.sum_cons]
      rw [← ih]
      push_cast
      ring

/-- Tokens conserved by mint: what any weights that give the changed supplies nothing make of it. -/
theorem weighted {l l' : Ledger} {ks : List Pubkey} (rate : Pubkey → Rat)
    (hc : ∀ m, (ks.map (balOf l' m)).sum + supplyOf l m = (ks.map (balOf l m)).sum + supplyOf l' m)
    (hr : ∀ m, supplyOf l' m ≠ supplyOf l m → rate m = 0) :
    (ks.map (worth rate l')).sum = (ks.map (worth rate l)).sum := by
  let M : List Pubkey := (ks.filterMap (fun k => (l.tok k).map TokenAcc.mint) ++ ks.filterMap fun k => (l'.tok k).map TokenAcc.mint).dedup
  have hM : M.Nodup := List.nodup_dedup _
  rw [sum_by_mint hM rate l' ks, sum_by_mint hM rate l ks]
  · congr 1
    refine List.map_congr_left fun m _ => ?_
    by_cases h : supplyOf l' m = supplyOf l m
    · have := hc m
      rw [h] at this
      rw [show (ks.map (balOf l' m)).sum = (ks.map (balOf l m)).sum by omega]
    · rw [hr m h]; simp
  · intro k hk a ha
    exact List.mem_dedup.2 (List.mem_append.2 (.inl (List.mem_filterMap.2 ⟨k, hk, by rw [ha]; rfl⟩)))
  · intro k hk a ha
    exact List.mem_dedup.2 (List.mem_append.2 (.inr (List.mem_filterMap.2 ⟨k, hk, by rw [ha]; rfl⟩)))

section
variable {cfg : Cfg} {L : RatioLib} {w w' : World}

theorem reservesKey_iff {s : LstState} (hi : Inv cfg w) (hs : s ∈ w.ctl.lsts) : IsReserves cfg w s (reservesKey cfg w s) := by
  obtain ⟨m, res, acc, ra, fa, la⟩ := hi.accs s hs
  refine ⟨m, la.mint, ?_⟩
  unfold reservesKey
  rw [la.mint]
  simp only [Option.bind_some, la.res_key, Option.getD_some]

theorem poolKeys_acc {s : LstState} (hi : Inv cfg w) (hs : s ∈ w.ctl.lsts) :
    (∃ a, w.led.tok (reservesKey cfg w s) = some a ∧ a.owner = cfg.poolState ∧ a.mint = s.mint) ∧
    (∃ a, w.led.tok (feesKey cfg w s) = some a ∧ a.owner = cfg.protocolFee ∧ a.mint = s.mint) := by
  obtain ⟨m, res, acc, ra, fa, la⟩ := hi.accs s hs
  have e1 : reservesKey cfg w s = res := by
    unfold reservesKey; rw [la.mint]; simp only [Option.bind_some, la.res_key, Option.getD_some]
  have e2 : feesKey cfg w s = acc := by
    unfold feesKey; rw [la.mint]; simp only [Option.bind_some, la.acc_key, Option.getD_some]
  rw [e1, e2]
  exact ⟨⟨ra, la.res, la.ra_owner, la.ra_mint⟩, ⟨fa, la.acc, la.fa_owner, la.fa_mint⟩⟩

theorem poolKeys_nodup (hi : Inv cfg w) : (poolKeys cfg w).Nodup := by
  have inj : ∀ (f : LstState → Pubkey), (∀ s ∈ w.ctl.lsts, ∃ a, w.led.tok (f s) = some a ∧ a.mint = s.mint) →
      (w.ctl.lsts.map f).Nodup := by
    intro f hf
    have hn := hi.ctl.mints
    revert hf hn
    generalize w.ctl.lsts = ls
    intro hf hn
    induction ls with
    | nil => simp
    | cons s ls ih =>
      simp only [List.map_cons, List.nodup_cons] at hn ⊢
      refine ⟨fun hm => ?_, ih (fun t ht => hf t (List.mem_cons_of_mem _ ht)) hn.2⟩
      obtain ⟨t, ht, e⟩ := List.mem_map.1 hm
      obtain ⟨a, ha, ham⟩ := hf s List.mem_cons_self
      obtain ⟨b, hb, hbm⟩ := hf t (List.mem_cons_of_mem _ ht)
      rw [e, ha] at hb; injection hb with hb; subst hb
      exact hn.1 (List.mem_map.2 ⟨t, ht, hbm.symm.trans ham⟩)
  refine List.nodup_append.2 ⟨inj _ fun s hs => ?_, inj _ fun s hs => ?_, ?_⟩
  · obtain ⟨⟨a, h1, _, h2⟩, _⟩ := poolKeys_acc hi hs; exact ⟨a, h1, h2⟩
  · obtain ⟨_, ⟨a, h1, _, h2⟩⟩ := poolKeys_acc hi hs; exact ⟨a, h1, h2⟩
  · rintro k h1 _ h2 rfl
    obtain ⟨s, hs, rfl⟩ := List.mem_map.1 h1
    obtain ⟨t, ht, e⟩ := List.mem_map.1 h2
    obtain ⟨⟨a, ha, hao, _⟩, _⟩ := poolKeys_acc hi hs
    obtain ⟨_, ⟨b, hb, hbo, _⟩⟩ := poolKeys_acc hi ht
    rw [e, ha] at hb; injection hb with hb; subst hb
    exact cfg.pool_ne_fee (hao.symm.trans hbo)

/-- What stays over users' instructions. -/
structure Kept (cfg : Cfg) (w w' : World) : Prop where
  idents : w'.ctl.lsts.map LstState.ident = w.ctl.lsts.map LstState.ident
  lp : lpMintOf w' = lpMintOf w
  prog : ∀ k m, w.led.mints k = some m → ∃ m', w'.led.mints k = some m' ∧ m'.program = m.program
  acc : ∀ k a, w.led.tok k = some a → Ctrl cfg a.owner → ∃ n, w'.led.tok k = some { a with amount := n } ∧
    (a.owner = cfg.protocolFee → a.amount ≤ n)
  supply : ∀ m, supplyOf w'.led m ≠ supplyOf w.led m → m = lpMintOf w

theorem Kept.refl (w : World) : Kept cfg w w where
  idents := rfl
  lp := rfl
  prog k m h := ⟨m, h, rfl⟩
  acc k a h _ := ⟨a.amount, h, fun _ => Nat.le_refl _⟩
  supply m h := absurd rfl h

theorem Kept.trans {w1 w2 : World} (h : Kept cfg w w1) (h' : Kept cfg w1 w2) : Kept cfg w w2 where
  idents := h'.idents.trans h.idents
  lp := h'.lp.trans h.lp
  prog k m hk := by
    obtain ⟨m1, a1, b1⟩ := h.prog k m hk
    obtain ⟨m2, a2, b2⟩ := h'.prog k m1 a1
    exact ⟨m2, a2, b2.trans b1⟩
  acc k a hk ho := by
    obtain ⟨n, h1, h2⟩ := h.acc k a hk ho
    obtain ⟨n', h3, h4⟩ := h'.acc k _ h1 ho
    exact ⟨n', h3, fun e => (h2 e).trans (h4 e)⟩
  supply m hm := by
    by_cases h1 : supplyOf w1.led m = supplyOf w.led m
    · rw [← h1] at hm; rw [← h.lp]; exact h'.supply m hm
    · exact h.supply m h1

theorem kept_ix {env : Env cfg} {tx : TxInfo} {accs : List Acc} {ix : Ix} (hq : env.Quiet) (hs : signersOk cfg accs) (hu : ix.IsUser)
    (h : processIx cfg L env tx w accs ix = .ok w') : Kept cfg w w' := by
  have hc := processIx_ctl h
  obtain ⟨ops, ht, _⟩ := processIx_trace h
  have n1 : ix ≠ .addLst := by rintro rfl; exact hu
  have n2 : ∀ i, ix ≠ .removeLst i := by rintro i rfl; exact hu
  have n3 : ix ≠ .initialize := by rintro rfl; exact hu
  have n4 : ∀ x, ix ≠ .withdrawProtocolFees x := by rintro i rfl; exact hu
  obtain ⟨p, p', hp, hp', hm⟩ := hc.lpMint n3
  have e1 : lpMintOf w = p.lpTokenMint := by unfold lpMintOf; rw [hp]; rfl
  have e2 : lpMintOf w' = p'.lpTokenMint := by unfold lpMintOf; rw [hp']; rfl
  refine ⟨hc.ident n1 n2, by rw [e1, e2, hm], fun k m hk => ?_, fun k a hk ho => ?_, fun m hx => ?_⟩
  · obtain ⟨m', h1, h2, _⟩ := TraceE.mint ht hk; exact ⟨m', h1, h2⟩
  · rcases ctrl_account_ix hs h hk ho with ⟨n, h1, h2⟩ | ⟨_, _, i, e⟩
    · refine ⟨n, h1, fun e => ?_⟩
      by_contra hx
      rcases h2 (by omega) with ⟨h3, _⟩ | ⟨_, x, h3⟩
      · exact cfg.pool_ne_fee (h3.symm.trans e)
      · exact n4 x h3
    · exact absurd e (n2 i)
  · obtain ⟨_, q, hq', hqm⟩ := (C44_conserved hq h).2.1 m hx
    rw [hp] at hq'; injection hq' with hq'; subst hq'
    rw [e1, hqm]

theorem chain_kept {es : List (Event cfg)} {ks : List Pubkey} (hn : ks.Nodup) (hc : Chain w es w')
    (hrun : ∀ e ∈ es, e.act.run L e.tx e.pre = .ok e.post) (hu : UserEvents cfg ks es) :
    Kept cfg w w' ∧ ∀ m, (ks.map (balOf w'.led m)).sum + supplyOf w.led m = (ks.map (balOf w.led m)).sum + supplyOf w'.led m := by
  induction hc with
  | nil => exact ⟨.refl _, fun m => rfl⟩
  | @cons w' e es hc ih =>
    have hre := hrun e List.mem_cons_self
    obtain ⟨k2, c2⟩ := ih (fun e he => hrun e (List.mem_cons_of_mem _ he)) (fun e he => hu e (List.mem_cons_of_mem _ he))
    rcases hu e List.mem_cons_self with ⟨c, ix, h1, h2, h3, h4, h5⟩ | ⟨h1, h2⟩
    · rw [h1] at hre
      obtain ⟨g1, ix', g2, g3⟩ := Call.run_ok hre
      rw [h3] at g2; injection g2 with g2; subst g2
      have k1 := kept_ix h2 g1 h4 g3
      have c1 := (C44_conserved h2 g3).1
      refine ⟨k1.trans k2, fun m => ?_⟩
      have a1 := c1 m ks hn h5
      have a2 := c2 m
      omega
    · have k1 : Kept cfg e.pre e.post := by
        cases ha : e.act with
        | call c => exact absurd ha (h1 c)
        | ext f ok =>
          rw [ha] at hre
          have hx := ok e.pre.led
          injection hre with hre
          have ec : e.post.ctl = e.pre.ctl := by rw [← hre]
          have el : e.post.led = f e.pre.led := by rw [← hre]
          rw [← el] at hx
          refine ⟨by rw [ec], by unfold lpMintOf; rw [ec], fun k m hk => ?_, fun k a hk ho => ?_, fun m hm => ?_⟩
          · obtain ⟨m', g1, g2, _⟩ := hx.mint k m hk; exact ⟨m', g1, g2⟩
          · obtain ⟨n, g1, g2⟩ := hx.tok k a hk ho; exact ⟨n, g2, fun _ => g1⟩
          · by_contra hne; exact hm ((h2 m).2 hne)
      refine ⟨k1.trans k2, fun m => ?_⟩
      have a1 := (h2 m).1
      have a2 := c2 m
      omega

theorem worth_split (rate : Pubkey → Rat) (lp : Pubkey) (p : Rat) (l : Ledger) (ks : List Pubkey) :
    (ks.map (worth (fun m => if m = lp then p else rate m) l)).sum =
      (ks.map (worth (fun m => if m = lp then 0 else rate m) l)).sum + p * ((ks.map (balOf l lp)).sum : Nat) := by
  induction ks with
  | nil => simp
  | cons k ks ih =>
    simp only [List.map_cons, List.sum_cons]
    rw [ih]
    have : worth (fun m => if m = lp then p else rate m) l k =
        worth (fun m => if m = lp then 0 else rate m) l k + p * (balOf l lp k : Nat) := by
      unfold worth balOf
      cases l.tok k with
      | none => simp
      | some a => simp only [Option.elim]; split <;> simp
    rw [this]
    push_cast
    ring

theorem sum_mono {α : Type} {l : List α} {f g : α → Rat} (h : ∀ x ∈ l, f x ≤ g x) : (l.map f).sum ≤ (l.map g).sum := by
  induction l with
  | nil => simp
  | cons x l ih =>
    simp only [List.map_cons, List.sum_cons]
    exact add_le_add (h x List.mem_cons_self) (ih fun y hy => h y (List.mem_cons_of_mem _ hy))

theorem lpSupply_mint (h : lpSupply w ≠ 0) : lpSupply w = supplyOf w.led (lpMintOf w) := by
  unfold lpSupply lpMintOf at *
  cases hp : w.ctl.pool with
  | none => rw [hp] at h; exact absurd rfl h
  | some p => rfl

theorem totalOf_sum (hi : Inv cfg w) (h : lpSupply w ≠ 0) : totalOf w = (w.ctl.lsts.map LstState.solValue).sum := by
  cases hp : w.ctl.pool with
  | none => unfold lpSupply at h; rw [hp] at h; exact absurd rfl h
  | some p => rw [totalOf_pool hp]; exact hi.ctl.total p hp

/-- Recorded total against worth of the reserves. -/
theorem total_le_worth {val : Valuation} {rate : Pubkey → Rat} (hi : Inv cfg w) (h : lpSupply w ≠ 0) (hb : Backed cfg val w)
    (hr : ∀ m x, ((val m).f x : Rat) ≤ rate m * x) :
    (totalOf w : Rat) ≤ (w.ctl.lsts.map fun s => rate s.mint * bal w.led (reservesKey cfg w s)).sum := by
  rw [totalOf_sum hi h]
  have e : (((w.ctl.lsts.map LstState.solValue).sum : Nat) : Rat) = (w.ctl.lsts.map fun s => (s.solValue : Rat)).sum := by
    generalize w.ctl.lsts = ls
    induction ls with
    | nil => simp
    | cons s ls ih => simp only [List.map_cons, List.sum_cons, Nat.cast_add, ih]
  rw [e]
  refine sum_mono fun s hs => ?_
  refine le_trans ?_ (hr _ _)
  exact_mod_cast hb s hs _ (reservesKey_iff hi hs)

/-- What stays at the pool's accounts. -/
theorem Kept.pool {rate : Pubkey → Rat} {lp : Pubkey} (hk : Kept cfg w w') (hi : Inv cfg w) (hlp : ∀ s ∈ w.ctl.lsts, s.mint ≠ lp)
    (hrate : ∀ m, 0 ≤ rate m) :
    ((poolKeys cfg w).map (balOf w.led lp)).sum = 0 ∧ ((poolKeys cfg w).map (balOf w'.led lp)).sum = 0 ∧
    ((poolKeys cfg w).map (worth (fun m => if m = lp then 0 else rate m) w.led)).sum +
      (w.ctl.lsts.map fun s => rate s.mint * bal w'.led (reservesKey cfg w s)).sum ≤
    ((poolKeys cfg w).map (worth (fun m => if m = lp then 0 else rate m) w'.led)).sum +
      (w.ctl.lsts.map fun s => rate s.mint * bal w.led (reservesKey cfg w s)).sum := by
  have A := fun s hs => poolKeys_acc (s := s) hi hs
  have zero : ∀ l : Ledger, (∀ k ∈ poolKeys cfg w, ∀ a, l.tok k = some a → a.mint ≠ lp) → ((poolKeys cfg w).map (balOf l lp)).sum = 0 :=
    fun l hl => sum_zero fun k hk => by
      unfold balOf
      cases ht : l.tok k with
      | none => rfl
      | some a => simp only; rw [if_neg (hl k hk a ht)]
  have mem : ∀ k ∈ poolKeys cfg w, ∃ a, w.led.tok k = some a ∧ Ctrl cfg a.owner ∧ a.mint ≠ lp := by
    intro k hk
    rcases List.mem_append.1 hk with hk | hk
    · obtain ⟨s, hs, rfl⟩ := List.mem_map.1 hk
      obtain ⟨⟨a, h1, h2, h3⟩, _⟩ := A s hs
      exact ⟨a, h1, .inl h2, by rw [h3]; exact hlp s hs⟩
    · obtain ⟨s, hs, rfl⟩ := List.mem_map.1 hk
      obtain ⟨_, ⟨a, h1, h2, h3⟩⟩ := A s hs
      exact ⟨a, h1, .inr h2, by rw [h3]; exact hlp s hs⟩
  refine ⟨zero _ fun k hk' a ha => ?_, zero _ fun k hk' a ha => ?_, ?_⟩
  · obtain ⟨b, h1, _, h3⟩ := mem k hk'
    rw [ha] at h1; injection h1 with h1; subst h1; exact h3
  · obtain ⟨b, h1, h2, h3⟩ := mem k hk'
    obtain ⟨n, h4, _⟩ := hk.acc k b h1 h2
    rw [ha] at h4; injection h4 with h4; subst h4; exact h3
  · unfold poolKeys
    simp only [List.map_append, List.sum_append, List.map_map]
    have r1 : (w.ctl.lsts.map (worth (fun m => if m = lp then 0 else rate m) w.led ∘ reservesKey cfg w)).sum =
        (w.ctl.lsts.map fun s => rate s.mint * bal w.led (reservesKey cfg w s)).sum := by
      congr 1
      refine List.map_congr_left fun s hs => ?_
      obtain ⟨⟨a, h1, _, h3⟩, _⟩ := A s hs
      simp only [Function.comp, worth, h1, Option.elim, h3, bal, if_neg (hlp s hs)]
    have r2 : (w.ctl.lsts.map (worth (fun m => if m = lp then 0 else rate m) w'.led ∘ reservesKey cfg w)).sum =
        (w.ctl.lsts.map fun s => rate s.mint * bal w'.led (reservesKey cfg w s)).sum := by
      congr 1
      refine List.map_congr_left fun s hs => ?_
      obtain ⟨⟨a, h1, h2, h3⟩, _⟩ := A s hs
      obtain ⟨n, h4, _⟩ := hk.acc _ a h1 (.inl h2)
      simp only [Function.comp, worth, h4, Option.elim, h3, bal, if_neg (hlp s hs)]
    have r3 : (w.ctl.lsts.map (worth (fun m => if m = lp then 0 else rate m) w.led ∘ feesKey cfg w)).sum ≤
        (w.ctl.lsts.map (worth (fun m => if m = lp then 0 else rate m) w'.led ∘ feesKey cfg w)).sum := by
      refine sum_mono fun s hs => ?_
      obtain ⟨_, ⟨a, h1, h2, h3⟩⟩ := A s hs
      obtain ⟨n, h4, h5⟩ := hk.acc _ a h1 (.inr h2)
      simp only [Function.comp, worth, h1, h4, Option.elim, h3, if_neg (hlp s hs)]
      exact mul_le_mul_of_nonneg_left (by exact_mod_cast h5 h2) (hrate _)
    rw [r1, r2]
    linarith

theorem Kept.reserves {G : Pubkey → Pubkey → Rat} (hk : Kept cfg w w') (hi : Inv cfg w) :
    (w'.ctl.lsts.map fun s => G s.mint (reservesKey cfg w' s)).sum = (w.ctl.lsts.map fun s => G s.mint (reservesKey cfg w s)).sum := by
  let H : Pubkey × Nat × Nat → Rat := fun x => G x.1
    (((w'.led.mints x.1).bind fun m => cfg.ata cfg.poolState m.program x.1 x.2.1).getD 0)
  have e : ∀ ls : List LstState, (ls.map fun s => G s.mint (reservesKey cfg w' s)) = (ls.map LstState.ident).map H := by
    intro ls; rw [List.map_map]; rfl
  rw [e, hk.idents, ← e]
  congr 1
  refine List.map_congr_left fun s hs => ?_
  obtain ⟨m, res, acc, ra, fa, la⟩ := hi.accs s hs
  obtain ⟨m', h1, h2⟩ := hk.prog _ _ la.mint
  unfold reservesKey
  rw [h1, la.mint]
  simp only [Option.bind_some, h2]

theorem Chain.last {P : World → Prop} {es : List (Event cfg)} (hc : Chain w es w') (h0 : P w) (h : ∀ e ∈ es, P e.post) : P w' := by
  induction hc with
  | nil => exact h0
  | cons hc ih => exact ih (h _ List.mem_cons_self) fun e he => h e (List.mem_cons_of_mem _ he)

/-- C52: over any history of users' instructions (swaps, deposits, redemptions and syncs, by anyone, in any order, with any pricing
program) and of other movements of tokens among the accounts involved (transfers, gifts to the pool), what all the accounts involved are worth together, LP tokens at the pool's own price, grows by no more than the gains of LSTs that the
pool had not recorded at the start (`gap`), as long as no LST loses value: what one user gains beyond that another one involved loses. LP tokens
held by others pay at most the rounding losses `q` of C51. `rate` is any exchange rate that is not below the calculators' own. -/
theorem C52_no_profit {val val' : Valuation} {rate : Pubkey → Rat} {us : List Pubkey} {h : List (Tx cfg)} {q : Rat}
    (hr : Reachable cfg L w) (hb : Backed cfg val w) (hS0 : lpSupply w ≠ 0)
    (hn : (us ++ poolKeys cfg w).Nodup) (hu : UserEvents cfg (us ++ poolKeys cfg w) (historyEvents L w h))
    (hv : Rising L val (historyEvents L w h) val' q)
    (hS : ∀ e ∈ historyEvents L w h, lpSupply e.pre ≠ 0 ∧ lpSupply e.post ≠ 0)
    (hlp : ∀ s ∈ w.ctl.lsts, s.mint ≠ lpMintOf w)
    (hrate : ∀ m x, ((val' m).f x : Rat) ≤ rate m * x)
    (hO : (us.map (balOf w.led (lpMintOf w))).sum ≤ lpSupply w) :
    wealth rate (runHistory L w h) us ≤ wealth rate w us + gap cfg rate w + q * othersLp w us := by
  have hprice := C51_lp_price hr hb hv hS
  have hback := C51_backed hr hb hv
  obtain ⟨hc, hrun⟩ := historyEvents_chain L w h
  obtain ⟨hk, hcons⟩ := chain_kept hn hc hrun hu
  have hi := hr.inv
  have hi' : Inv cfg (runHistory L w h) := by
    have := (Chain.inv (P := Inv cfg) hc hrun (fun h hr => h.action hr) hi).2
    exact this
  have hS' : lpSupply (runHistory L w h) ≠ 0 := hc.last (P := fun w => lpSupply w ≠ 0) hS0 fun e he => (hS e he).2
  generalize runHistory L w h = w' at *
  have hr0 : ∀ m, 0 ≤ rate m := fun m => by
    have := hrate m 1
    have h0 : (0 : Rat) ≤ ((val' m).f 1 : Nat) := Nat.cast_nonneg _
    simp only [Nat.cast_one, mul_one] at this
    linarith
  obtain ⟨z, z', hpool⟩ := hk.pool (rate := rate) hi hlp hr0
  have hT' := total_le_worth hi' hS' hback hrate
  rw [hk.reserves (G := fun m k => rate m * bal w'.led k) hi] at hT'
  -- LP tokens
  have hL := hcons (lpMintOf w)
  rw [List.map_append, List.sum_append, List.map_append, List.sum_append, z, z'] at hL
  have e1 := lpSupply_mint hS0
  have e2 := lpSupply_mint hS'
  rw [hk.lp] at e2
  rw [← e1, ← e2] at hL
  -- other tokens
  have hV := weighted (ks := us ++ poolKeys cfg w) (fun m => if m = lpMintOf w then 0 else rate m) hcons
    (fun m hm => if_pos (hk.supply m hm))
  rw [List.map_append, List.sum_append, List.map_append, List.sum_append] at hV
  unfold wealth gap othersLp
  rw [hk.lp, worth_split rate (lpMintOf w) (lpPrice w') w'.led, worth_split rate (lpMintOf w) (lpPrice w) w.led]
  generalize (us.map (worth (fun m => if m = lpMintOf w then 0 else rate m) w.led)).sum = V at *
  generalize (us.map (worth (fun m => if m = lpMintOf w then 0 else rate m) w'.led)).sum = V' at *
  generalize ((poolKeys cfg w).map (worth (fun m => if m = lpMintOf w then 0 else rate m) w.led)).sum = P at *
  generalize ((poolKeys cfg w).map (worth (fun m => if m = lpMintOf w then 0 else rate m) w'.led)).sum = P' at *
  generalize (w.ctl.lsts.map fun s => rate s.mint * bal w.led (reservesKey cfg w s)).sum = R at *
  generalize (w.ctl.lsts.map fun s => rate s.mint * bal w'.led (reservesKey cfg w s)).sum = R' at *
  generalize (us.map (balOf w.led (lpMintOf w))).sum = U at *
  generalize (us.map (balOf w'.led (lpMintOf w))).sum = U' at *
  have f1 : lpPrice w * lpSupply w = totalOf w := div_mul_cancel₀ _ (by exact_mod_cast hS0)
  have f2 : lpPrice w' * lpSupply w' = totalOf w' := div_mul_cancel₀ _ (by exact_mod_cast hS')
  have hLq : (U' : Rat) + lpSupply w = U + lpSupply w' := by
    have : U' + lpSupply w = U + lpSupply w' := by omega
    exact_mod_cast this
  have hOq : (0 : Rat) ≤ lpSupply w - U := by
    have : (U : Rat) ≤ lpSupply w := by exact_mod_cast hO
    linarith
  have hm := mul_le_mul_of_nonneg_right hprice hOq
  have g1 : lpPrice w' * U' = totalOf w' - lpPrice w' * (lpSupply w - U) := by
    rw [← f2, show (U' : Rat) = U + lpSupply w' - lpSupply w by linarith]; ring
  have g2 : lpPrice w * U = totalOf w - lpPrice w * (lpSupply w - U) := by
    rw [← f1]; ring
  have g3 : (lpPrice w' + q) * (lpSupply w - U) = lpPrice w' * (lpSupply w - U) + q * (lpSupply w - U) := by ring
  rw [g1, g2]
  rw [g3] at hm
  linarith

/-- When all LSTs are synced and `rate` is the calculators' rate before rounding down, the gap is at most a lamport per LST. -/
theorem C52_gap {val : Valuation} {rate : Pubkey → Rat} (hr : Reachable cfg L w) (hS0 : lpSupply w ≠ 0)
    (hsync : ∀ s ∈ w.ctl.lsts, ∀ k, IsReserves cfg w s k → s.solValue = (val s.mint).f (bal w.led k))
    (hrate : ∀ m x, rate m * x ≤ ((val m).f x : Rat) + 1) : gap cfg rate w ≤ w.ctl.lsts.length := by
  unfold gap
  rw [totalOf_sum hr.inv hS0]
  have key : ∀ ls : List LstState, (∀ s ∈ ls, s ∈ w.ctl.lsts) →
      (ls.map fun s => rate s.mint * bal w.led (reservesKey cfg w s)).sum ≤ (((ls.map LstState.solValue).sum : Nat) : Rat) + ls.length := by
    intro ls
    induction ls with
    | nil => simp
    | cons s ls ih =>
      intro hm
      have h1 := ih fun t ht => hm t (List.mem_cons_of_mem _ ht)
      have h2 := hrate s.mint (bal w.led (reservesKey cfg w s))
      rw [← hsync s (hm s List.mem_cons_self) _ (reservesKey_iff hr.inv (hm s List.mem_cons_self))] at h2
      simp only [List.map_cons, List.sum_cons, List.length_cons]
      push_cast
      linarith
  have := key _ fun s hs => hs
  linarith

end

/-! ### A concrete case -/

/-- Accounts of the example's user. -/
def Ex.us : List Pubkey := [41, 42, 43, 40, 21, 22, 20, 8, 1, 2, 31, 32, 7]

def Ex.rate : Pubkey → Rat := fun m => if m = 22 then 3 / 2 else 1

/-- Two swaps and a redemption. -/
def Ex.trades : List (Tx Ex.cfg) := [Ex.tSwapIn, Ex.tSwapOut, Ex.tRedeem]

theorem Ex.user {t : Tx Ex.cfg} (ht : t ∈ Ex.trades) {s : Step Ex.cfg} (hs : s ∈ t) {a : Action Ex.cfg} (ha : a ∈ s.actions) :
    ∃ c ix, a = .call c ∧ c.env.Quiet ∧ decodeIx c.data = .ok ix ∧ ix.IsUser ∧
      ∀ a ∈ c.accs, a.key ∈ Ex.us ++ [Ex.resA, Ex.resB, Ex.feeA, Ex.feeB] := by
  simp only [Ex.trades, Ex.tSwapIn, Ex.tSwapOut, Ex.tRedeem, Ex.call, List.mem_cons, List.not_mem_nil, or_false] at ht
  rcases ht with rfl | rfl | rfl <;> simp only [List.mem_cons, List.not_mem_nil, or_false] at hs <;> subst hs <;>
    simp only [Step.actions, List.mem_cons, List.not_mem_nil, or_false] at ha <;> subst ha
  · exact ⟨_, .swapExactIn ⟨1, 1, 0, 1, 10, 3000⟩, rfl, Env.pure_quiet, by decide +kernel, trivial, by decide +kernel⟩
  · exact ⟨_, .swapExactOut ⟨1, 1, 0, 1, 5000, 2000⟩, rfl, Env.pure_quiet, by decide +kernel, trivial, by decide +kernel⟩
  · exact ⟨_, .removeLiquidity ⟨1, 0, 10000, 1⟩, rfl, Env.pure_quiet, by decide +kernel, trivial, by decide +kernel⟩

theorem Ex.rate_le (m : Pubkey) (x : Nat) : ((Ex.val m).f x : Rat) ≤ Ex.rate m * x := by
  unfold Ex.val Ex.rate
  split
  · show ((x * 3 / 2 : Nat) : Rat) ≤ _
    have h := Nat.div_mul_le_self (x * 3) 2
    have : ((x * 3 / 2 : Nat) : Rat) * 2 ≤ x * 3 := by exact_mod_cast h
    linarith
  · show (x : Rat) ≤ _
    linarith

-- All hypotheses hold for these trades from the state after two deposits; the gap is 0 and the user loses 17 lamports in fees and
-- rounding.
example : wealth Ex.rate (runHistory .ex (Ex.st 5) Ex.trades) Ex.us ≤
    wealth Ex.rate (Ex.st 5) Ex.us + gap Ex.cfg Ex.rate (Ex.st 5) + 0 * othersLp (Ex.st 5) Ex.us :=
  C52_no_profit (L := .ex) (Ex.st_reachable 5) (Ex.backed (by decide +kernel)) (by decide +kernel) (by decide +kernel)
    (fun e he => by
      obtain ⟨t, h1, s, h2, h3⟩ := historyEvents_act he
      have := Ex.user h1 h2 h3
      rw [show poolKeys Ex.cfg (Ex.st 5) = [Ex.resA, Ex.resB, Ex.feeA, Ex.feeB] by decide +kernel]
      exact .inl this)
    (Rising.const Ex.val_noFees (Ex.follows (by simp [Ex.trades, Ex.hist]) (by decide +kernel)))
    (by decide +kernel) (by decide +kernel) Ex.rate_le (by decide +kernel)
example : wealth Ex.rate (Ex.st 5) Ex.us = 2500000 ∧ wealth Ex.rate (runHistory .ex (Ex.st 5) Ex.trades) Ex.us = 2499983 ∧
    gap Ex.cfg Ex.rate (Ex.st 5) = 0 := by decide +kernel

/-- Moving tokens among given accounts moves them among these only. -/
theorem Ex.moveTokens_among {lp src dst : Pubkey} {n : Nat} {l : Ledger} {ks : List Pubkey} (hn : ks.Nodup) (hs : src ∈ ks) (hd : dst ∈ ks) :
    MovesAmong lp ks l (Ex.moveTokens src dst n l) := by
  intro m
  unfold Ex.moveTokens
  split
  · rename_i a b ha hb
    split
    · rename_i hc
      obtain ⟨hne, _, _, hm, hle, _⟩ := hc
      refine ⟨?_, fun _ => rfl⟩
      have := sum_balance (f := balOf l m)
        (g := balOf ((l.setTok src (some { a with amount := a.amount - n })).setTok dst (some { b with amount := b.amount + n })) m)
        (n := if a.mint = m then n else 0) (m := if a.mint = m then n else 0) hn hs hd (fun k => by
          unfold balOf Ledger.setTok upd only
          by_cases h1 : k = dst
          · subst h1
            rw [if_pos rfl, if_neg hne.symm, hb]
            simp only [hm, if_true]
            split <;> rfl
          · by_cases h2 : k = src
            · subst h2
              rw [if_neg h1, if_pos rfl, ha]
              simp only [if_neg h1, if_true]
              split <;> omega
            · simp only [if_neg h1, if_neg h2])
      change (ks.map (balOf ((l.setTok src (some { a with amount := a.amount - n })).setTok dst (some { b with amount := b.amount + n })) m)).sum +
        supplyOf l m = (ks.map (balOf l m)).sum + supplyOf l m
      omega
    · exact ⟨rfl, fun _ => rfl⟩
  · exact ⟨rfl, fun _ => rfl⟩

/-- An attempt to gain from a gift: the user gives the pool 6000 of LST 21, has it recorded, redeems. -/
def Ex.donate : List (Tx Ex.cfg) := [[Ex.payA], Ex.tSync, Ex.tRedeem]

theorem Ex.donate_acts {t : Tx Ex.cfg} (ht : t ∈ Ex.donate) {s : Step Ex.cfg} (hs : s ∈ t) {a : Action Ex.cfg} (ha : a ∈ s.actions) :
    (∃ c ix, a = .call c ∧ c.env = Ex.env ∧ decodeIx c.data = .ok ix ∧ ix.IsUser ∧
      ∀ a ∈ c.accs, a.key ∈ Ex.us ++ [Ex.resA, Ex.resB, Ex.feeA, Ex.feeB]) ∨ a = .ext (Ex.moveTokens 41 Ex.resA 6000) (Ex.moveTokens_ok _ _ _) := by
  simp only [Ex.donate, Ex.tSync, Ex.tRedeem, Ex.call, List.mem_cons, List.not_mem_nil, or_false] at ht
  rcases ht with rfl | rfl | rfl <;> simp only [List.mem_cons, List.not_mem_nil, or_false] at hs <;> subst hs <;>
    simp only [Ex.payA, Step.actions, List.mem_cons, List.not_mem_nil, or_false] at ha <;> subst ha
  · exact .inr rfl
  · exact .inl ⟨_, .syncSolValue 0, rfl, rfl, by decide +kernel, trivial, by decide +kernel⟩
  · exact .inl ⟨_, .removeLiquidity ⟨1, 0, 10000, 1⟩, rfl, rfl, by decide +kernel, trivial, by decide +kernel⟩

-- All hypotheses hold; the user loses.
example : wealth Ex.rate (runHistory .ex (Ex.st 7) Ex.donate) Ex.us ≤
    wealth Ex.rate (Ex.st 7) Ex.us + gap Ex.cfg Ex.rate (Ex.st 7) + 0 * othersLp (Ex.st 7) Ex.us :=
  C52_no_profit (L := .ex) (Ex.st_reachable 7) (Ex.backed (by decide +kernel)) (by decide +kernel) (by decide +kernel)
    (fun e he => by
      rw [show poolKeys Ex.cfg (Ex.st 7) = [Ex.resA, Ex.resB, Ex.feeA, Ex.feeB] by decide +kernel]
      obtain ⟨t, h1, s, h2, h3⟩ := historyEvents_act he
      rcases Ex.donate_acts h1 h2 h3 with ⟨c, ix, e1, e2, e3⟩ | e1
      · exact .inl ⟨c, ix, e1, by rw [e2]; exact Env.pure_quiet, e3⟩
      · refine .inr ⟨fun c hc => ?_, ?_⟩
        · rw [e1] at hc; cases hc
        · have hre := (historyEvents_chain .ex (Ex.st 7) Ex.donate).2 e he
          rw [e1] at hre; injection hre with hre
          rw [← hre]
          exact Ex.moveTokens_among (by decide +kernel) (by decide +kernel) (by decide +kernel))
    (Rising.const Ex.val_noFees fun e he => by
      refine ⟨fun m => ?_, fun c hc => ?_⟩
      · unfold Ex.val; split
        · exact ⟨by decide, by decide⟩
        · trivial
      · obtain ⟨t, h1, s, h2, h3⟩ := historyEvents_act he
        rcases Ex.donate_acts h1 h2 h3 with ⟨c', ix, e1, e2, e3⟩ | e1
        · rw [hc] at e1; injection e1 with e1; subst e1; rw [e2]
          have hl : ∀ e ∈ historyEvents .ex (Ex.st 7) Ex.donate, ∀ s ∈ e.pre.ctl.lsts ++ e.post.ctl.lsts, (s.mint = 22 ∧ s.solValueCalculator = 32) ∨
            (s.mint = 21 ∧ s.solValueCalculator = 31) := by decide +kernel
          refine ⟨Env.pure_quiet, fun s hs => ?_⟩
          rcases hl e he s (List.mem_append.2 hs) with ⟨e1, e2⟩ | ⟨e1, e2⟩
          · rw [e1, e2]; intro n w' ms r l hm; exact ⟨fun a h => (Env.pure_calc.1 h).1, fun v h => (Env.pure_calc.1 h).1⟩
          · rw [e1, e2]; intro n w' ms r l hm; exact ⟨fun a h => (Env.pure_calc.1 h).1, fun v h => (Env.pure_calc.1 h).1⟩
        · rw [hc] at e1; cases e1)
    (by decide +kernel) (by decide +kernel) Ex.rate_le (by decide +kernel)
example : wealth Ex.rate (runHistory .ex (Ex.st 7) Ex.donate) Ex.us < wealth Ex.rate (Ex.st 7) Ex.us ∧
    lpPrice (Ex.st 7) < lpPrice (runHistory .ex (Ex.st 7) Ex.donate) := by decide +kernel

end S
