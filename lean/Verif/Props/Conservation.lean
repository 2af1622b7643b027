import Verif.Props.Custody
import Mathlib.Data.List.Dedup
/-
C44: tokens are conserved by every instruction, when the called calculator and pricing programs do not move tokens themselves
(those of this repository do not).
-/
set_option autoImplicit false
namespace S

/-- Balance of account `k` counted in mint `m`. -/
def balOf (l : Ledger) (m k : Pubkey) : Nat :=
  match l.tok k with
  | some a => if a.mint = m then a.amount else 0
  | none => 0

/-- Supply of mint `m` (0 if there is none). -/
def supplyOf (l : Ledger) (m : Pubkey) : Nat := (l.mints m).elim 0 Mint.supply

/-- `n` at account `j`, nothing elsewhere. -/
def only (j : Pubkey) (n : Nat) (k : Pubkey) : Nat := if k = j then n else 0

theorem only_self (j : Pubkey) (n : Nat) : only j n j = n := by simp [only]
theorem only_ne {j k : Pubkey} (n : Nat) (h : k ≠ j) : only j n k = 0 := by simp [only, h]
@[simp] theorem only_zero (j k : Pubkey) : only j 0 k = 0 := by simp [only]

theorem sum_zero {ks : List Pubkey} {f : Pubkey → Nat} (h : ∀ k ∈ ks, f k = 0) : (ks.map f).sum = 0 := by
  induction ks with
  | nil => rfl
  | cons x ks ih =>
    rw [List.forall_mem_cons] at h
    rw [List.map_cons, List.sum_cons, h.1, ih h.2]

theorem sum_only {ks : List Pubkey} (hn : ks.Nodup) {j : Pubkey} (hj : j ∈ ks) (n : Nat) : (ks.map (only j n)).sum = n := by
  induction ks with
  | nil => cases hj
  | cons x ks ih =>
    rw [List.nodup_cons] at hn
    by_cases e : x = j
    · subst e
      have : (ks.map (only x n)).sum = 0 := by
        exact sum_zero fun k hk => only_ne n (by rintro rfl; exact hn.1 hk)
      rw [List.map_cons, List.sum_cons, this, only_self]; rfl
    · rw [List.map_cons, List.sum_cons, only_ne n e, ih hn.2 (by rcases List.mem_cons.1 hj with h | h; exact absurd h.symm e; exact h)]
      omega

theorem sum_add (ks : List Pubkey) (f g : Pubkey → Nat) :
    (ks.map fun k => f k + g k).sum = (ks.map f).sum + (ks.map g).sum := by
  induction ks with
  | nil => rfl
  | cons x ks ih => simp only [List.map_cons, List.sum_cons, ih]; omega

/-- Moving `n` from `s` to `d` (in one function): equal sums. -/
theorem sum_balance {ks : List Pubkey} (hn : ks.Nodup) {f g : Pubkey → Nat} {s d : Pubkey} {n m : Nat}
    (hs : s ∈ ks) (hd : d ∈ ks) (h : ∀ k, g k + only s n k = f k + only d m k) :
    (ks.map g).sum + n = (ks.map f).sum + m := by
  have : (ks.map fun k => g k + only s n k).sum = (ks.map fun k => f k + only d m k).sum := by
    congr 1; apply List.map_congr_left; intro k _; exact h k
  rw [sum_add, sum_add, sum_only hn hs, sum_only hn hd] at this; exact this

theorem transfer_balOf {l : Ledger} {t : TransferAccs} {n : Nat} {l' : Ledger} (h : transfer l t n = .ok l') (m k : Pubkey) :
    balOf l' m k + only t.src (if t.mint = m then n else 0) k = balOf l m k + only t.dst (if t.mint = m then n else 0) k := by
  obtain ⟨mt, a, b, f⟩ := transfer_ok.1 h
  unfold balOf
  rw [f.tok k]
  by_cases e : t.src = t.dst
  · rw [if_pos e, e]
  · rw [if_neg e]
    have := f.enough
    by_cases e1 : k = t.dst
    · rw [if_pos e1, e1, only_self, only_ne _ (fun x => e x.symm), f.dst]
      simp only [f.bmint]; split <;> rfl
    · rw [if_neg e1, only_ne _ e1]
      by_cases e2 : k = t.src
      · rw [if_pos e2, e2, only_self, f.src]
        simp only [f.amint]; split <;> omega
      · rw [if_neg e2, only_ne _ e2]

/-- Accounts outside the operation's keys are untouched. -/
theorem LedOp.RunE.frame {cfg : Cfg} {l l' : Ledger} {op : LedOp} (h : op.RunE cfg (fun l l' => l' = l) l l') {k : Pubkey}
    (hk : k ∉ op.keys) : l'.tok k = l.tok k ∧ l'.mints k = l.mints k := by
  cases op with
  | ext => rw [show l' = l from h]; exact ⟨rfl, rfl⟩
  | transfer t x =>
    obtain ⟨mt, a, b, f⟩ := transfer_ok.1 h
    simp only [LedOp.keys, List.mem_cons, not_or] at hk
    rw [f.mints, f.tok k, if_neg hk.2.1, if_neg hk.1]; exact ⟨by split <;> rfl, rfl⟩
  | mintTo mt d tp au x =>
    obtain ⟨m0, b, f⟩ := mintTo_ok.1 h
    simp only [LedOp.keys, List.mem_cons, not_or] at hk
    rw [f.eq]; simp [upd_ne _ _ hk.1, upd_ne _ _ hk.2.1]
  | burn mt s tp au x =>
    obtain ⟨m0, b, f⟩ := burn_ok.1 h
    simp only [LedOp.keys, List.mem_cons, not_or] at hk
    rw [f.eq]; simp [upd_ne _ _ hk.1, upd_ne _ _ hk.2.1]
  | close kk tp au =>
    obtain ⟨b, hb, _, _, _, rfl⟩ := closeToken_ok.1 h
    simp only [LedOp.keys, List.mem_cons, not_or] at hk
    simp [upd_ne _ _ hk.1]
  | setMintAuth mt tp au nw =>
    obtain ⟨m0, hm, _, hau, rfl⟩ := setMintAuth_ok.1 h
    simp only [LedOp.keys, List.mem_cons, not_or] at hk
    simp [upd_ne _ _ hk.1]
  | setFreezeAuth mt tp au nw =>
    obtain ⟨m0, hm, _, hau, rfl⟩ := setFreezeAuth_ok.1 h
    simp only [LedOp.keys, List.mem_cons, not_or] at hk
    simp [upd_ne _ _ hk.1]
  | createAta kk wa tp mt =>
    obtain ⟨rfl, hnone, _, rfl⟩ := createAta_ok.1 h
    simp only [LedOp.keys, List.mem_cons, not_or] at hk
    simp [upd_ne _ _ hk.1]

/-- One operation keeps (sum of balances) - supply, for every mint. -/
theorem LedOp.RunE.conserve {cfg : Cfg} {l l' : Ledger} {op : LedOp} (h : op.RunE cfg (fun l l' => l' = l) l l')
    (m : Pubkey) {ks : List Pubkey} (hn : ks.Nodup) (hks : ∀ k ∈ op.keys, k ∈ ks) :
    (ks.map (balOf l' m)).sum + supplyOf l m = (ks.map (balOf l m)).sum + supplyOf l' m := by
  have same : (∀ k, balOf l' m k = balOf l m k) → supplyOf l' m = supplyOf l m →
      (ks.map (balOf l' m)).sum + supplyOf l m = (ks.map (balOf l m)).sum + supplyOf l' m := by
    intro h1 h2; rw [h2, show balOf l' m = balOf l m from funext h1]
  cases op with
  | ext => rw [show l' = l from h]
  | transfer t x =>
    have hb := transfer_balOf h m
    have := sum_balance hn (hks t.src (by simp [LedOp.keys])) (hks t.dst (by simp [LedOp.keys])) hb
    obtain ⟨mt, a, b, f⟩ := transfer_ok.1 h
    have : supplyOf l' m = supplyOf l m := by unfold supplyOf; rw [f.mints]
    omega
  | mintTo mt d tp au x =>
    obtain ⟨m0, b, f⟩ := mintTo_ok.1 h
    by_cases e : mt = m
    · subst e
      have hs : supplyOf l' mt = supplyOf l mt + x := by
        unfold supplyOf; rw [f.eq]; simp [f.hmint]
      have hb : ∀ k, balOf l' mt k + only d 0 k = balOf l mt k + only d x k := by
        intro k
        unfold balOf; rw [f.eq]
        by_cases e1 : k = d
        · subst e1; simp [f.hdst, f.bmint, only_self]
        · simp [upd_ne _ _ e1, only_ne _ e1]
      have hd := hks d (by simp [LedOp.keys])
      have := sum_balance hn hd hd hb
      omega
    · apply same
      · intro k
        unfold balOf; rw [f.eq]
        by_cases e1 : k = d
        · subst e1; simp [f.hdst, f.bmint, e]
        · simp [upd_ne _ _ e1]
      · unfold supplyOf; rw [f.eq]; simp [upd_ne _ _ (fun x => e x.symm : m ≠ mt)]
  | burn mt s tp au x =>
    obtain ⟨m0, b, f⟩ := burn_ok.1 h
    have h1 := f.enough
    have h2 := f.senough
    by_cases e : mt = m
    · subst e
      have hs : supplyOf l' mt + x = supplyOf l mt := by
        unfold supplyOf; rw [f.eq]; simp [f.hmint]; omega
      have hb : ∀ k, balOf l' mt k + only s x k = balOf l mt k + only s 0 k := by
        intro k
        unfold balOf; rw [f.eq]
        by_cases e1 : k = s
        · subst e1; simp [f.hsrc, f.amint, only_self]; omega
        · simp [upd_ne _ _ e1, only_ne _ e1]
      have hd := hks s (by simp [LedOp.keys])
      have := sum_balance hn hd hd hb
      omega
    · apply same
      · intro k
        unfold balOf; rw [f.eq]
        by_cases e1 : k = s
        · subst e1; simp [f.hsrc, f.amint, e]
        · simp [upd_ne _ _ e1]
      · unfold supplyOf; rw [f.eq]; simp [upd_ne _ _ (fun x => e x.symm : m ≠ mt)]
  | close kk tp au =>
    obtain ⟨b, hb, _, _, h0, rfl⟩ := closeToken_ok.1 h
    apply same
    · intro k
      unfold balOf
      by_cases e1 : k = kk
      · subst e1; simp [hb, h0]
      · simp [upd_ne _ _ e1]
    · rfl
  | setMintAuth mt tp au nw =>
    obtain ⟨m0, hm, _, hau, rfl⟩ := setMintAuth_ok.1 h
    apply same
    · intro k; rfl
    · unfold supplyOf
      by_cases e1 : m = mt
      · subst e1; simp [hm]
      · simp [upd_ne _ _ e1]
  | setFreezeAuth mt tp au nw =>
    obtain ⟨m0, hm, _, hau, rfl⟩ := setFreezeAuth_ok.1 h
    apply same
    · intro k; rfl
    · unfold supplyOf
      by_cases e1 : m = mt
      · subst e1; simp [hm]
      · simp [upd_ne _ _ e1]
  | createAta kk wa tp mt =>
    obtain ⟨rfl, hnone, _, rfl⟩ := createAta_ok.1 h
    apply same
    · intro k
      unfold balOf
      by_cases e1 : k = (cfg.findAta wa tp mt).1
      · subst e1; simp [hnone]
      · simp [upd_ne _ _ e1]
    · rfl

theorem TraceE.conserve {cfg : Cfg} {l l' : Ledger} {ops : List LedOp} (h : TraceE cfg (fun l l' => l' = l) l ops l')
    (m : Pubkey) {ks : List Pubkey} (hn : ks.Nodup) (hks : ∀ op ∈ ops, ∀ k ∈ op.keys, k ∈ ks) :
    (ks.map (balOf l' m)).sum + supplyOf l m = (ks.map (balOf l m)).sum + supplyOf l' m := by
  induction h with
  | nil => rfl
  | cons h _ ih =>
    rw [List.forall_mem_cons] at hks
    have h1 := LedOp.RunE.conserve h m hn hks.1
    have h2 := ih hks.2
    omega

theorem TraceE.frame {cfg : Cfg} {l l' : Ledger} {ops : List LedOp} (h : TraceE cfg (fun l l' => l' = l) l ops l')
    {k : Pubkey} (hk : ∀ op ∈ ops, k ∉ op.keys) : l'.tok k = l.tok k ∧ l'.mints k = l.mints k := by
  induction h with
  | nil => exact ⟨rfl, rfl⟩
  | cons h _ ih =>
    rw [List.forall_mem_cons] at hk
    have h1 := LedOp.RunE.frame h hk.1
    have h2 := ih hk.2
    exact ⟨h2.1.trans h1.1, h2.2.trans h1.2⟩

theorem TraceE.supply {cfg : Cfg} {l l' : Ledger} {ops : List LedOp} (h : TraceE cfg (fun l l' => l' = l) l ops l')
    {m : Pubkey} (hk : ∀ op ∈ ops, (∀ d tp au n, op ≠ .mintTo m d tp au n) ∧ (∀ d tp au n, op ≠ .burn m d tp au n)) :
    supplyOf l' m = supplyOf l m := by
  induction h with
  | nil => rfl
  | @cons l l1 l2 op ops h _ ih =>
    rw [List.forall_mem_cons] at hk
    rw [ih hk.2]
    have hm := hk.1
    cases op with
    | ext => rw [show l1 = l from h]
    | transfer t x =>
      obtain ⟨mt, a, b, f⟩ := transfer_ok.1 h
      unfold supplyOf; rw [f.mints]
    | mintTo mt d tp au x =>
      obtain ⟨m0, b, f⟩ := mintTo_ok.1 h
      have e : m ≠ mt := by rintro rfl; exact hm.1 d tp au x rfl
      unfold supplyOf; rw [f.eq]; simp [upd_ne _ _ e]
    | burn mt s tp au x =>
      obtain ⟨m0, b, f⟩ := burn_ok.1 h
      have e : m ≠ mt := by rintro rfl; exact hm.2 s tp au x rfl
      unfold supplyOf; rw [f.eq]; simp [upd_ne _ _ e]
    | close kk tp au => obtain ⟨b, hb, _, _, h0, rfl⟩ := closeToken_ok.1 h; rfl
    | setMintAuth mt tp au nw =>
      obtain ⟨m0, hm, _, hau, rfl⟩ := setMintAuth_ok.1 h
      unfold supplyOf
      by_cases e1 : m = mt
      · subst e1; simp [hm]
      · simp [upd_ne _ _ e1]
    | setFreezeAuth mt tp au nw =>
      obtain ⟨m0, hm, _, hau, rfl⟩ := setFreezeAuth_ok.1 h
      unfold supplyOf
      by_cases e1 : m = mt
      · subst e1; simp [hm]
      · simp [upd_ne _ _ e1]
    | createAta kk wa tp mt => obtain ⟨rfl, hnone, _, rfl⟩ := createAta_ok.1 h; rfl

/-- C44: for every mint `m` and every collection `ks` of accounts that includes the instruction's accounts, the combined balance
of `ks` in `m` changes exactly as the supply of `m` does; the supply of `m` is unchanged unless the instruction is AddLiquidity or
RemoveLiquidity and `m` is the LP mint; and accounts and mints not passed to the instruction are untouched. -/
theorem C44_conserved {cfg : Cfg} {L : RatioLib} {env : Env cfg} {tx : TxInfo} {w w' : World} {accs : List Acc} {ix : Ix}
    (hq : env.Quiet) (h : processIx cfg L env tx w accs ix = .ok w') :
    (∀ (m : Pubkey) (ks : List Pubkey), ks.Nodup → (∀ a ∈ accs, a.key ∈ ks) →
      (ks.map (balOf w'.led m)).sum + supplyOf w.led m = (ks.map (balOf w.led m)).sum + supplyOf w'.led m) ∧
    (∀ m, supplyOf w'.led m ≠ supplyOf w.led m →
      ((∃ a, ix = .addLiquidity a) ∨ ∃ a, ix = .removeLiquidity a) ∧ ∃ p, w.ctl.pool = some p ∧ p.lpTokenMint = m) ∧
    (∀ k, (∀ a ∈ accs, a.key ≠ k) → w'.led.tok k = w.led.tok k ∧ w'.led.mints k = w.led.mints k) := by
  obtain ⟨ops, ht, ha⟩ := processIx_traceE hq.within h
  refine ⟨fun m ks hn hks => ht.conserve m hn fun op ho k hk => ?_, fun m hm => ?_, fun k hk => ht.frame fun op ho hmem => ?_⟩
  · obtain ⟨a, hac, rfl, _⟩ := (ha op ho).2 k hk
    exact hks a hac
  · by_contra hcon
    apply hm
    apply ht.supply
    intro op ho
    refine ⟨?_, ?_⟩
    · rintro d tp au n rfl
      obtain ⟨_, ⟨args, hx⟩, p, hp, hl⟩ := (ha _ ho).1
      exact hcon ⟨.inl ⟨args, hx⟩, p, hp, hl⟩
    · rintro d tp au n rfl
      obtain ⟨⟨args, hx, _⟩, _, p, hp, hl⟩ := (ha _ ho).1
      exact hcon ⟨.inr ⟨args, hx⟩, p, hp, hl⟩
  · obtain ⟨a, hac, he, _⟩ := (ha op ho).2 k hmem
    exact hk a hac he

-- The swap of the example, mint 22: what leaves reserves B (1982) is what the user (1980) and the fee accumulator (2) get.
example : Ex.env.Quiet := Env.pure_quiet
example : (List.map (balOf (Ex.st 5).led 22) [Ex.resB, 42, Ex.feeB], List.map (balOf (Ex.st 6).led 22) [Ex.resB, 42, Ex.feeB])
    = ([20000, 980000, 0], [18018, 981980, 2]) := by decide +kernel

/-! ### Over a history -/

/-- Whatever accounts are counted, their balances in a mint add up to no more than its supply. -/
def Ledger.Backed (l : Ledger) : Prop := ∀ (m : Pubkey) (ks : List Pubkey), ks.Nodup → (ks.map (balOf l m)).sum ≤ supplyOf l m

theorem Ledger.Backed.ix {cfg : Cfg} {L : RatioLib} {env : Env cfg} {tx : TxInfo} {w w' : World} {accs : List Acc} {ix : Ix}
    (hq : env.Quiet) (h : processIx cfg L env tx w accs ix = .ok w') (hb : w.led.Backed) : w'.led.Backed := by
  intro m ks hn
  obtain ⟨hc, -, -⟩ := C44_conserved hq h
  let rest := (accs.map Acc.key).dedup.filter (fun k => decide (k ∉ ks))
  have hnd : (ks ++ rest).Nodup := by
    refine List.nodup_append.2 ⟨hn, (List.nodup_dedup _).filter _, ?_⟩
    rintro a ha b hb' rfl
    have := (List.mem_filter.1 hb').2
    simp only [decide_eq_true_eq] at this
    exact this ha
  have hall : ∀ a ∈ accs, a.key ∈ ks ++ rest := by
    intro a ha
    by_cases hk : a.key ∈ ks
    · exact List.mem_append_left _ hk
    · refine List.mem_append_right _ (List.mem_filter.2 ⟨?_, by simpa using hk⟩)
      exact List.mem_dedup.2 (List.mem_map_of_mem ha)
  have h1 := hc m _ hnd hall
  have h2 := hb m _ hnd
  simp only [List.map_append, List.sum_append] at h1 h2
  omega

/-- C44 over a history: as long as other programs keep balances backed by the supply (as the token program does), the controller does too: in no
state of any history do the balances of a mint, LP tokens included, exceed its supply. -/
theorem C44_backed {cfg : Cfg} {L : RatioLib} {w : World} {h : List (Tx cfg)} (hb : w.led.Backed)
    (hext : ∀ e ∈ historyEvents L w h, ∀ f ok, e.act = .ext f ok → e.pre.led.Backed → (f e.pre.led).Backed)
    (hcall : ∀ e ∈ historyEvents L w h, ∀ c, e.act = .call c → c.env.Quiet) : (runHistory L w h).led.Backed := by
  obtain ⟨hc, hr⟩ := historyEvents_chain L w h
  generalize historyEvents L w h = es at *
  generalize runHistory L w h = w' at *
  induction hc with
  | nil => exact hb
  | @cons w' e es _ ih =>
    rw [List.forall_mem_cons] at hext hcall hr
    refine ih ?_ hext.2 hcall.2 hr.2
    obtain ⟨tx, pre, act, post⟩ := e
    cases act with
    | ext f ok =>
      have := hr.1
      simp only [Action.run, Except.ok.injEq] at this
      subst this
      exact hext.1 f ok rfl hb
    | call c =>
      obtain ⟨-, ix, -, hp⟩ := Call.run_ok hr.1
      exact hb.ix (hcall.1 c rfl) hp

namespace Ex

theorem w0_backed : w0.led.Backed := by
  intro m ks hn
  have h : ∀ k, balOf w0.led m k = only 41 (if m = 21 then 1000000 else 0) k + only 42 (if m = 22 then 1000000 else 0) k := by
    intro k
    simp only [balOf, w0, led, only]
    by_cases h1 : k = 41
    · subst h1; by_cases hm : m = 21 <;> simp [hm, eq_comm]
    · by_cases h2 : k = 42
      · subst h2; by_cases hm : m = 22 <;> simp [hm, eq_comm]
      · by_cases h3 : k = 43
        · subst h3; simp
        · by_cases h4 : k = 44
          · subst h4; simp
          · simp [h1, h2, h3, h4]
  have hle : ∀ j n, (ks.map (only j n)).sum ≤ n := by
    intro j n
    by_cases hj : j ∈ ks
    · rw [sum_only hn hj]
    · rw [sum_zero fun k hk => only_ne _ (by rintro rfl; exact hj hk)]; exact Nat.zero_le _
  have e : (ks.map (balOf w0.led m)) = ks.map (fun k => only 41 (if m = 21 then 1000000 else 0) k + only 42 (if m = 22 then 1000000 else 0) k) :=
    List.map_congr_left fun k _ => h k
  rw [e, sum_add]
  have h1 := hle 41 (if m = 21 then 1000000 else 0)
  have h2 := hle 42 (if m = 22 then 1000000 else 0)
  simp only [supplyOf, w0, led]
  by_cases m1 : m = 21
  · subst m1; simp at h1 h2 ⊢; omega
  · by_cases m2 : m = 22
    · subst m2; simp at h1 h2 ⊢; omega
    · simp only [m1, m2, if_false] at h1 h2 ⊢; omega

theorem quiet_acts : ∀ t ∈ hist.take 8, ∀ s ∈ t, ∀ a ∈ s.actions, ∃ c : Call cfg, a = .call c ∧ c.env = env := by
  simp [hist, List.take, tInit, tAddA, tAddB, tDepA, tDepB, tSwapIn, tSwapOut, tRedeem, call, Step.actions]

/-- The example's history keeps every mint backed. -/
theorem st_backed (n : Nat) (hn : n ≤ 8) : (st n).led.Backed := by
  have key : ∀ e ∈ historyEvents .ex w0 (hist.take n), ∃ c : Call cfg, e.act = .call c ∧ c.env = env := by
    intro e he
    obtain ⟨t, ht, s, hs, ha⟩ := historyEvents_act he
    refine quiet_acts t ?_ s hs _ ha
    have : hist.take n = (hist.take 8).take n := by rw [List.take_take, Nat.min_eq_left hn]
    rw [this] at ht
    exact List.mem_of_mem_take ht
  refine C44_backed w0_backed ?_ ?_
  · intro e he f ok hact
    obtain ⟨c, hc, -⟩ := key e he
    rw [hc] at hact; cases hact
  · intro e he c hact
    obtain ⟨c', hc, hq⟩ := key e he
    rw [hc] at hact; cases hact
    rw [hq]; exact Env.pure_quiet

end Ex

end S
