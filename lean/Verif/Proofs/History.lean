import Verif.Proofs.Ledger
/-
Lifting per-instruction facts to histories.
-/
set_option autoImplicit false
namespace S

theorem runActions_events {cfg : Cfg} {L : RatioLib} {tx : TxInfo} {w w' : World} {as : List (Action cfg)}
    (h : runActions L tx w as = .ok w') :
    Chain w (actionEvents L tx w as) w' ∧ ∀ e ∈ actionEvents L tx w as, e.act.run L e.tx e.pre = .ok e.post := by
  induction as generalizing w with
  | nil => simp only [runActions, Except.ok.injEq] at h; subst h; exact ⟨.nil _, by simp [actionEvents]⟩
  | cons a as ih =>
    simp only [runActions, bind_ok] at h
    obtain ⟨w1, h1, h2⟩ := h
    obtain ⟨c, r⟩ := ih h2
    simp only [actionEvents, h1]
    refine ⟨Chain.cons (e := ⟨tx, w, a, w1⟩) c, ?_⟩
    intro e he
    rcases List.mem_cons.1 he with rfl | he
    · exact h1
    · exact r e he

theorem Step.run_actions {cfg : Cfg} {L : RatioLib} {tx : TxInfo} {w w' : World} {s : Step cfg}
    (h : s.run L tx w = .ok w') : runActions L tx w s.actions = .ok w' := by
  cases s with
  | controller c => simp only [Step.run] at h; simp [Step.actions, runActions, Action.run, h, bind, Except.bind]
  | foreign ix n as => exact h

theorem Chain.append {cfg : Cfg} {w w1 w2 : World} {es fs : List (Event cfg)} (h : Chain w es w1)
    (h' : Chain w1 fs w2) : Chain w (es ++ fs) w2 := by
  induction h with
  | nil => exact h'
  | cons _ ih => exact .cons (ih h')

theorem runSteps_events {cfg : Cfg} {L : RatioLib} {ixs : List TopIx} {i : Nat} {w w' : World} {ss : List (Step cfg)}
    (h : runSteps L ixs i w ss = .ok w') :
    Chain w (stepEvents L ixs i w ss) w' ∧ ∀ e ∈ stepEvents L ixs i w ss, e.act.run L e.tx e.pre = .ok e.post := by
  induction ss generalizing w i with
  | nil => simp only [runSteps, Except.ok.injEq] at h; subst h; exact ⟨.nil _, by simp [stepEvents]⟩
  | cons s ss ih =>
    simp only [runSteps, bind_ok] at h
    obtain ⟨w1, h1, h2⟩ := h
    obtain ⟨c, r⟩ := ih h2
    obtain ⟨c0, r0⟩ := runActions_events (Step.run_actions h1)
    simp only [stepEvents, h1]
    exact ⟨c0.append c, fun e he => (List.mem_append.1 he).elim (r0 e) (r e)⟩

theorem Tx.events_chain {cfg : Cfg} (L : RatioLib) (w : World) (t : Tx cfg) :
    Chain w (Tx.events L w t) (Tx.apply L w t) ∧
      ∀ e ∈ Tx.events L w t, e.act.run L e.tx e.pre = .ok e.post := by
  unfold Tx.events Tx.apply
  cases h : Tx.run L w t with
  | error e => exact ⟨.nil _, by simp⟩
  | ok w' => exact runSteps_events h

/-- The events of a history lead from its first to its last state, and each is a successful action. -/
theorem historyEvents_chain {cfg : Cfg} (L : RatioLib) (w : World) (h : List (Tx cfg)) :
    Chain w (historyEvents L w h) (runHistory L w h) ∧
      ∀ e ∈ historyEvents L w h, e.act.run L e.tx e.pre = .ok e.post := by
  induction h generalizing w with
  | nil => exact ⟨.nil _, by simp [historyEvents]⟩
  | cons t h ih =>
    obtain ⟨c, r⟩ := ih (Tx.apply L w t)
    obtain ⟨c0, r0⟩ := Tx.events_chain L w t
    exact ⟨c0.append c, fun e he => (List.mem_append.1 he).elim (r0 e) (r e)⟩

theorem actionEvents_act {cfg : Cfg} {L : RatioLib} {tx : TxInfo} {w : World} {as : List (Action cfg)} {e : Event cfg}
    (he : e ∈ actionEvents L tx w as) : e.act ∈ as := by
  induction as generalizing w with
  | nil => cases he
  | cons a as ih =>
    simp only [actionEvents] at he
    split at he
    · rcases List.mem_cons.1 he with rfl | he
      · exact List.mem_cons_self
      · exact List.mem_cons_of_mem _ (ih he)
    · cases he

theorem stepEvents_act {cfg : Cfg} {L : RatioLib} {ixs : List TopIx} {i : Nat} {w : World} {ss : List (Step cfg)} {e : Event cfg}
    (he : e ∈ stepEvents L ixs i w ss) : ∃ s ∈ ss, e.act ∈ s.actions := by
  induction ss generalizing w i with
  | nil => cases he
  | cons s ss ih =>
    simp only [stepEvents] at he
    split at he
    · rcases List.mem_append.1 he with he | he
      · exact ⟨s, List.mem_cons_self, actionEvents_act he⟩
      · obtain ⟨s', h1, h2⟩ := ih he
        exact ⟨s', List.mem_cons_of_mem _ h1, h2⟩
    · cases he

/-- An event of a history performs an action of one of its transactions. -/
theorem historyEvents_act {cfg : Cfg} {L : RatioLib} {w : World} {h : List (Tx cfg)} {e : Event cfg}
    (he : e ∈ historyEvents L w h) : ∃ t ∈ h, ∃ s ∈ t, e.act ∈ s.actions := by
  induction h generalizing w with
  | nil => cases he
  | cons t h ih =>
    simp only [historyEvents] at he
    rcases List.mem_append.1 he with he | he
    · unfold Tx.events at he
      split at he
      · obtain ⟨s, h1, h2⟩ := stepEvents_act he
        exact ⟨t, List.mem_cons_self, s, h1, h2⟩
      · cases he
    · obtain ⟨t', h1, h2⟩ := ih he
      exact ⟨t', List.mem_cons_of_mem _ h1, h2⟩

theorem runHistory_append {cfg : Cfg} (L : RatioLib) (w : World) (h h' : List (Tx cfg)) :
    runHistory L w (h ++ h') = runHistory L (runHistory L w h) h' := by simp [runHistory]

/-- An invariant of actions holds before and after every event of a chain that starts in it, and at its end. -/
theorem Chain.inv {cfg : Cfg} {L : RatioLib} {P : World → Prop} {w w' : World} {es : List (Event cfg)}
    (hc : Chain w es w') (hr : ∀ e ∈ es, e.act.run L e.tx e.pre = .ok e.post)
    (hstep : ∀ {tx : TxInfo} {a : Action cfg} {w w' : World}, P w → a.run L tx w = .ok w' → P w') (h : P w) :
    (∀ e ∈ es, P e.pre ∧ P e.post) ∧ P w' := by
  induction hc with
  | nil => exact ⟨by simp, h⟩
  | cons _ ih =>
    rw [List.forall_mem_cons] at hr
    have h1 := hstep h hr.1
    obtain ⟨a, b⟩ := ih hr.2 h1
    refine ⟨?_, b⟩
    rw [List.forall_mem_cons]
    exact ⟨⟨h, h1⟩, a⟩

/-- If a quantity differs between the ends of a chain, some event changed it. -/
theorem Chain.changes {cfg : Cfg} {α : Type} (f : World → α) {w w' : World} {es : List (Event cfg)}
    (hc : Chain w es w') (hne : f w' ≠ f w) : ∃ e ∈ es, f e.post ≠ f e.pre := by
  induction hc with
  | nil => exact absurd rfl hne
  | @cons w' e es _ ih =>
    by_cases h : f e.post = f e.pre
    · obtain ⟨e', he', h'⟩ := ih (by rw [h]; exact hne)
      exact ⟨e', List.mem_cons_of_mem _ he', h'⟩
    · exact ⟨e, List.mem_cons_self .., h⟩

theorem Call.run_ok {cfg : Cfg} {L : RatioLib} {tx : TxInfo} {w w' : World} {c : Call cfg}
    (h : c.run L tx w = .ok w') :
    signersOk cfg c.accs ∧ ∃ ix, decodeIx c.data = .ok ix ∧ processIx cfg L c.env tx w c.accs ix = .ok w' := by
  simp only [Call.run, processInstruction, bind_ok, require_ok, exists_const] at h
  obtain ⟨h1, _, ix, h2, h3⟩ := h
  exact ⟨h1, ix, h2, h3⟩

/-- Every action either leaves the controller's accounts alone and changes the ledger within `ExtOk`, or is a successful
instruction. -/
theorem Action.run_ok {cfg : Cfg} {L : RatioLib} {tx : TxInfo} {w w' : World} {a : Action cfg}
    (h : a.run L tx w = .ok w') :
    (w'.ctl = w.ctl ∧ w.led.ExtOk cfg w'.led) ∨
    ∃ c ix, a = .call c ∧ signersOk cfg c.accs ∧ decodeIx c.data = .ok ix ∧
      processIx cfg L c.env tx w c.accs ix = .ok w' := by
  cases a with
  | ext f ok => simp only [Action.run, Except.ok.injEq] at h; subst h; exact .inl ⟨rfl, ok _⟩
  | call c => obtain ⟨h1, ix, h2, h3⟩ := Call.run_ok h; exact .inr ⟨c, ix, rfl, h1, h2, h3⟩

/-! ### The invariant of the whole state -/

/-- The pool accounts of a listed LST. -/
structure LstAccounts (cfg : Cfg) (l : Ledger) (s : LstState) (m : Mint) (res acc : Pubkey) (ra fa : TokenAcc) :
    Prop where
  mint : l.mints s.mint = some m
  prog : m.program = cfg.splToken ∨ m.program = cfg.token22
  res_key : cfg.ata cfg.poolState m.program s.mint s.poolReservesBump = some res
  acc_key : cfg.ata cfg.protocolFee m.program s.mint s.protocolFeeAccumulatorBump = some acc
  res : l.tok res = some ra
  acc : l.tok acc = some fa
  ra_owner : ra.owner = cfg.poolState
  fa_owner : fa.owner = cfg.protocolFee
  ra_mint : ra.mint = s.mint
  fa_mint : fa.mint = s.mint
  ra_prog : ra.program = m.program
  fa_prog : fa.program = m.program

structure Inv (cfg : Cfg) (w : World) : Prop where
  ctl : CtlInv w.ctl
  wf : w.led.Wf cfg
  accs : ∀ s ∈ w.ctl.lsts, ∃ m res acc ra fa, LstAccounts cfg w.led s m res acc ra fa
  lp : ∀ p, w.ctl.pool = some p → ∃ m, w.led.mints p.lpTokenMint = some m ∧ m.program = cfg.splToken ∧
    m.decimals = 9 ∧ m.mintAuth = some cfg.poolState ∧ m.freezeAuth = some cfg.poolState

theorem CtlInv.init : CtlInv Ctl.init where
  noPool _ := ⟨rfl, rfl, rfl⟩
  total p h := by cases h
  total_u64 p h := by cases h
  mints := by simp [Ctl.init]
  auths := by simp [Ctl.init]
  fees p h := by cases h
  version p h := by cases h
  flags p h := by cases h
  rebal p h := by cases h
  lst s h := by simp [Ctl.init] at h

theorem Inv.fresh {cfg : Cfg} {w : World} (h : World.Fresh cfg w) : Inv cfg w where
  ctl := h.ctl ▸ CtlInv.init
  wf := h.wf
  accs s hs := by rw [h.ctl] at hs; simp [Ctl.init] at hs
  lp p hp := by rw [h.ctl] at hp; cases hp

/-- Accounts of an LST survive any trace that closes neither. -/
theorem LstAccounts.trace {cfg : Cfg} {l l' : Ledger} {ops : List LedOp} {s : LstState} {m : Mint} {res acc : Pubkey}
    {ra fa : TokenAcc} (h : LstAccounts cfg l s m res acc ra fa) (ht : Trace cfg l ops l')
    (hr : ∀ op ∈ ops, ∀ tp o, op ≠ .close res tp o) (hf : ∀ op ∈ ops, ∀ tp o, op ≠ .close acc tp o) :
    ∃ m' ra' fa', LstAccounts cfg l' s m' res acc ra' fa' := by
  obtain ⟨m', hm', hp', _⟩ := ht.mint h.mint
  obtain ⟨n, hn, _⟩ := ht.tok h.res (.inl h.ra_owner) hr
  obtain ⟨n', hn', _⟩ := ht.tok h.acc (.inr h.fa_owner) hf
  exact ⟨m', _, _, hm', hp' ▸ h.prog, hp' ▸ h.res_key, hp' ▸ h.acc_key, hn, hn', h.ra_owner, h.fa_owner, h.ra_mint,
    h.fa_mint, h.ra_prog.trans hp'.symm, h.fa_prog.trans hp'.symm⟩

theorem LstAccounts.config {cfg : Cfg} {l : Ledger} {s s' : LstState} {m : Mint} {res acc : Pubkey}
    {ra fa : TokenAcc} (h : LstAccounts cfg l s m res acc ra fa) (hm : s'.mint = s.mint)
    (h1 : s'.poolReservesBump = s.poolReservesBump)
    (h2 : s'.protocolFeeAccumulatorBump = s.protocolFeeAccumulatorBump) :
    LstAccounts cfg l s' m res acc ra fa :=
  ⟨hm ▸ h.mint, h.prog, by rw [hm, h1]; exact h.res_key, by rw [hm, h2]; exact h.acc_key, h.res, h.acc, h.ra_owner,
    h.fa_owner, hm ▸ h.ra_mint, hm ▸ h.fa_mint, h.ra_prog, h.fa_prog⟩

/-- The identity of an entry: mint and account bumps. -/
def LstState.ident (s : LstState) : Pubkey × Nat × Nat := (s.mint, s.poolReservesBump, s.protocolFeeAccumulatorBump)

theorem OnlyValues.ident {c c' : Ctl} (h : OnlyValues c c') : c'.lsts.map LstState.ident = c.lsts.map LstState.ident := by
  have e : ∀ ls : List LstState, ls.map LstState.ident = (ls.map LstState.config).map LstState.ident := by
    intro ls; rw [List.map_map]; rfl
  rw [e c'.lsts, h.lsts, ← e]

/-- Every instruction except AddLst and RemoveLst keeps the identities of the listed LSTs. -/
theorem CtlStep.ident {cfg : Cfg} {tx : TxInfo} {w : World} {accs : List Acc} {c' : Ctl} {ix : Ix}
    (h : CtlStep cfg tx w accs c' ix) (h1 : ix ≠ .addLst) (h2 : ∀ i, ix ≠ .removeLst i) :
    c'.lsts.map LstState.ident = w.ctl.lsts.map LstState.ident := by
  cases ix with
  | syncSolValue i => obtain ⟨p, _, hs⟩ := h; exact hs.onlyValues.ident
  | swapExactIn args => obtain ⟨p, s, _, _, _, hs⟩ := h; exact hs.onlyValues.ident
  | swapExactOut args => obtain ⟨p, s, _, _, _, hs⟩ := h; exact hs.onlyValues.ident
  | addLiquidity args => obtain ⟨p, s, _, _, _, hs⟩ := h; exact hs.onlyValues.ident
  | removeLiquidity args => obtain ⟨p, _, hs⟩ := h; exact hs.onlyValues.ident
  | disableLstInput i => obtain ⟨p, s, _, _, hs, rfl⟩ := h; exact map_set_eq _ _ _ _ _ hs rfl
  | enableLstInput i => obtain ⟨p, s, _, _, hs, rfl⟩ := h; exact map_set_eq _ _ _ _ _ hs rfl
  | addLst => exact absurd rfl h1
  | removeLst i => exact absurd rfl (h2 i)
  | setSolValueCalculator i =>
    obtain ⟨p, s, prog, _, _, hs, _, hsy⟩ := h
    exact hsy.onlyValues.ident.trans (map_set_eq _ _ _ _ _ hs rfl)
  | setAdmin => obtain ⟨p, k, _, _, rfl⟩ := h; rfl
  | setProtocolFee args => obtain ⟨p, _, _, _, _, rfl⟩ := h; rfl
  | setProtocolFeeBeneficiary => obtain ⟨p, k, _, _, rfl⟩ := h; rfl
  | setPricingProgram => obtain ⟨p, k, _, _, _, rfl⟩ := h; rfl
  | withdrawProtocolFees n => obtain ⟨p, _, _, rfl⟩ := h; rfl
  | addDisablePoolAuthority => obtain ⟨p, k, _, _, _, rfl⟩ := h; rfl
  | removeDisablePoolAuthority i => obtain ⟨p, k, _, _, _, rfl⟩ := h; rfl
  | disablePool => obtain ⟨p, _, _, rfl⟩ := h; rfl
  | enablePool => obtain ⟨p, _, _, _, rfl⟩ := h; rfl
  | startRebalance args =>
    obtain ⟨p, s, c2, c3, p2, p3, dm, _, _, _, _, _, _, s2, _, s3, _, _, rfl⟩ := h
    exact (s2.trans s3).onlyValues.ident
  | endRebalance => obtain ⟨p, rr, c1, p1, _, _, _, _, hsy, _, _, rfl⟩ := h; exact hsy.onlyValues.ident
  | setRebalanceAuthority => obtain ⟨p, k, _, _, rfl⟩ := h; rfl
  | «initialize» => obtain ⟨k, _, _, rfl⟩ := h; rfl

/-- The LP mint is fixed by Initialize. -/
theorem CtlStep.lpMint {cfg : Cfg} {tx : TxInfo} {w : World} {accs : List Acc} {c' : Ctl} {ix : Ix}
    (h : CtlStep cfg tx w accs c' ix) (hne : ix ≠ .initialize) :
    ∃ p p', w.ctl.pool = some p ∧ c'.pool = some p' ∧ p'.lpTokenMint = p.lpTokenMint := by
  have sy : ∀ {c c' : Ctl} {p : PoolState}, Syncs c c' → c.pool = some p →
      ∃ p', c'.pool = some p' ∧ p'.lpTokenMint = p.lpTokenMint := by
    intro c c' p hs hp
    obtain ⟨t, ht⟩ := hs.onlyValues.pool p hp
    exact ⟨_, ht, rfl⟩
  cases ix with
  | syncSolValue i => obtain ⟨p, ⟨hp, _⟩, hs⟩ := h; exact ⟨p, (sy hs hp).choose, hp, (sy hs hp).choose_spec⟩
  | swapExactIn args => obtain ⟨p, s, ⟨hp, _⟩, _, _, hs⟩ := h; exact ⟨p, (sy hs hp).choose, hp, (sy hs hp).choose_spec⟩
  | swapExactOut args => obtain ⟨p, s, ⟨hp, _⟩, _, _, hs⟩ := h; exact ⟨p, (sy hs hp).choose, hp, (sy hs hp).choose_spec⟩
  | addLiquidity args => obtain ⟨p, s, ⟨hp, _⟩, _, _, hs⟩ := h; exact ⟨p, (sy hs hp).choose, hp, (sy hs hp).choose_spec⟩
  | removeLiquidity args => obtain ⟨p, ⟨hp, _⟩, hs⟩ := h; exact ⟨p, (sy hs hp).choose, hp, (sy hs hp).choose_spec⟩
  | disableLstInput i => obtain ⟨p, s, ⟨hp, _⟩, _, hs, rfl⟩ := h; exact ⟨p, p, hp, hp, rfl⟩
  | enableLstInput i => obtain ⟨p, s, ⟨hp, _⟩, _, hs, rfl⟩ := h; exact ⟨p, p, hp, hp, rfl⟩
  | addLst => obtain ⟨p, s, ⟨hp, _⟩, _, _, _, _, _, _, _, rfl⟩ := h; exact ⟨p, p, hp, hp, rfl⟩
  | removeLst i => obtain ⟨p, s, ⟨hp, _⟩, _, _, _, rfl⟩ := h; exact ⟨p, p, hp, hp, rfl⟩
  | setSolValueCalculator i =>
    obtain ⟨p, s, prog, ⟨hp, _⟩, _, hs, _, hsy⟩ := h
    exact ⟨p, (sy hsy hp).choose, hp, (sy hsy hp).choose_spec⟩
  | setAdmin => obtain ⟨p, k, hp, _, rfl⟩ := h; exact ⟨p, _, hp, rfl, rfl⟩
  | setProtocolFee args => obtain ⟨p, ⟨hp, _⟩, _, _, _, rfl⟩ := h; exact ⟨p, _, hp, rfl, rfl⟩
  | setProtocolFeeBeneficiary => obtain ⟨p, k, ⟨hp, _⟩, _, rfl⟩ := h; exact ⟨p, _, hp, rfl, rfl⟩
  | setPricingProgram => obtain ⟨p, k, ⟨hp, _⟩, _, _, rfl⟩ := h; exact ⟨p, _, hp, rfl, rfl⟩
  | withdrawProtocolFees n => obtain ⟨p, ⟨hp, _⟩, _, rfl⟩ := h; exact ⟨p, p, hp, hp, rfl⟩
  | addDisablePoolAuthority => obtain ⟨p, k, hp, _, _, rfl⟩ := h; exact ⟨p, p, hp, hp, rfl⟩
  | removeDisablePoolAuthority i => obtain ⟨p, k, hp, _, _, rfl⟩ := h; exact ⟨p, p, hp, hp, rfl⟩
  | disablePool => obtain ⟨p, ⟨hp, _⟩, _, rfl⟩ := h; exact ⟨p, _, hp, rfl, rfl⟩
  | enablePool => obtain ⟨p, hp, _, _, rfl⟩ := h; exact ⟨p, _, hp, rfl, rfl⟩
  | startRebalance args =>
    obtain ⟨p, s, c2, c3, p2, p3, dm, ⟨hp, _⟩, _, _, _, _, _, s2, _, s3, hp3, _, rfl⟩ := h
    obtain ⟨q, hq, e⟩ := sy (s2.trans s3) hp
    rw [hp3] at hq; injection hq with hq; subst hq
    exact ⟨p, _, hp, rfl, e⟩
  | endRebalance =>
    obtain ⟨p, rr, c1, p1, hp, _, _, _, hsy, hp1, _, rfl⟩ := h
    obtain ⟨q, hq, e⟩ := sy hsy rfl
    exact ⟨p, q, hp, hq, e⟩
  | setRebalanceAuthority => obtain ⟨p, k, ⟨hp, _⟩, _, rfl⟩ := h; exact ⟨p, _, hp, rfl, rfl⟩
  | «initialize» => exact absurd rfl hne

theorem createAtaIfNotExist_ok {cfg : Cfg} {l l' : Ledger} {k wa tp m : Pubkey} {mt : Mint}
    (h : createAtaIfNotExist cfg l k wa tp m = .ok l') (hk : k = (cfg.findAta wa tp m).1) (hw : l.Wf cfg)
    (_hm : l.mints m = some mt) : ∃ a, l'.tok k = some a ∧ a.owner = wa ∧ a.mint = m ∧ a.program = tp ∧
      l'.mints = l.mints ∧ (∀ k', k' ≠ k → l'.tok k' = l.tok k') ∧
      (∀ k' a', l.tok k' = some a' → l'.tok k' = some a') := by
  unfold createAtaIfNotExist at h
  split at h
  · rename_i hn
    obtain ⟨_, _, _, rfl⟩ := createAta_ok.1 h
    refine ⟨⟨tp, m, wa, 0⟩, by simp, rfl, rfl, rfl, rfl, fun k' hk' => by simp [upd_ne _ _ hk'], ?_⟩
    intro k' a' ha'
    have : k' ≠ k := by rintro rfl; rw [hn] at ha'; cases ha'
    simp [upd_ne _ _ this, ha']
  · rename_i a ha
    simp only [bind_ok, require_ok, exists_const, pure_ok] at h
    obtain ⟨ho, rfl⟩ := h
    obtain ⟨e1, e2⟩ := hw.ata wa tp m _ k a (hk ▸ cfg.findAta_ata wa tp m) ha
    exact ⟨a, ha, ho, e1, e2, rfl, fun _ _ => rfl, fun _ _ h => h⟩

/-- On a duplicate-free list the mint determines the index. -/
theorem mint_index {ls : List LstState} (h : (ls.map LstState.mint).Nodup) {i j : Nat} {s t : LstState}
    (hi : ls[i]? = some s) (hj : ls[j]? = some t) (he : s.mint = t.mint) : i = j := by
  obtain ⟨hil, rfl⟩ := List.getElem?_eq_some_iff.1 hi
  obtain ⟨hjl, rfl⟩ := List.getElem?_eq_some_iff.1 hj
  rw [List.Nodup, List.pairwise_iff_getElem] at h
  rcases Nat.lt_trichotomy i j with hlt | heq | hlt
  · exact absurd (by rw [List.getElem_map, List.getElem_map]; exact he) (h i j (by simpa using hil) (by simpa using hjl) hlt)
  · exact heq
  · exact absurd (by rw [List.getElem_map, List.getElem_map]; exact he.symm) (h j i (by simpa using hjl) (by simpa using hil) hlt)

/-- Every successful instruction keeps the invariant. -/
theorem Inv.ix {cfg : Cfg} {L : RatioLib} {env : Env cfg} {tx : TxInfo} {w w' : World} {accs : List Acc} {ix : Ix} (h : Inv cfg w)
    (hix : processIx cfg L env tx w accs ix = .ok w') : Inv cfg w' := by
  have hctl := processIx_ctl hix
  obtain ⟨ops, ht, hal⟩ := processIx_trace hix
  refine ⟨h.ctl.step hctl, ht.wf h.wf, ?_, ?_⟩
  · by_cases hadd : ix = .addLst
    · subst hadd
      obtain ⟨r⟩ := processAddLst_inv hix
      have e := r.eq
      obtain ⟨a1, h1, h1o, h1m, h1p, hm1, ho1, hk1⟩ := createAtaIfNotExist_ok r.c1 r.res h.wf r.hm
      have wf1 : r.l1.Wf cfg := by
        obtain ⟨ops, t, _⟩ := createAtaIfNotExist_trace r.c1
        exact t.wf h.wf
      obtain ⟨a2, h2, h2o, h2m, h2p, hm2, ho2, hk2⟩ := createAtaIfNotExist_ok (mt := r.m) r.c2 r.acc wf1 (hm1 ▸ r.hm)
      intro s hs
      have e1 := congrArg World.ctl e
      have e2 := congrArg World.led e
      rw [e1] at hs
      rw [e2]
      rcases List.mem_append.1 hs with hs | hs
      · obtain ⟨m, res, acc, ra, fa, hl⟩ := h.accs s hs
        exact ⟨m, res, acc, ra, fa, ⟨by show r.l2.mints _ = _; rw [hm2, hm1]; exact hl.mint, hl.prog, hl.res_key, hl.acc_key, hk2 _ _ (hk1 _ _ hl.res),
          hk2 _ _ (hk1 _ _ hl.acc), hl.ra_owner, hl.fa_owner, hl.ra_mint, hl.fa_mint, hl.ra_prog, hl.fa_prog⟩⟩
      · simp at hs; subst hs
        refine ⟨r.m, _, _, a1, a2, ⟨by show r.l2.mints _ = _; rw [hm2, hm1]; exact r.hm, r.tp_ok, ?_, ?_, hk2 _ _ h1, h2, h1o, h2o, h1m, h2m, h1p, h2p⟩⟩
        · rw [r.res]; exact cfg.findAta_ata _ _ _
        · rw [r.acc]; exact cfg.findAta_ata _ _ _
    · by_cases hrem : ∃ i, ix = .removeLst i
      · obtain ⟨i, rfl⟩ := hrem
        obtain ⟨r⟩ := processRemoveLst_inv hix
        have e := r.eq
        obtain ⟨x1, _, _, _, _, f1⟩ := closeToken_ok.1 r.c1
        obtain ⟨x2, _, _, _, _, f2⟩ := closeToken_ok.1 r.c2
        intro s hs
        have e1 := congrArg World.ctl e
        have e2 := congrArg World.led e
        rw [e1] at hs
        rw [e2]
        have hs0 : s ∈ w.ctl.lsts := List.mem_of_mem_eraseIdx hs
        have hne : s.mint ≠ r.s.mint := by
          intro heq
          obtain ⟨j, hj⟩ := List.mem_iff_getElem?.1 hs
          rw [List.getElem?_eraseIdx] at hj
          have hi := r.sel.get
          split at hj
          · rename_i hlt
            exact absurd (mint_index h.ctl.mints hj hi heq) (by omega)
          · rename_i hge
            exact absurd (mint_index h.ctl.mints hj hi heq) (by omega)
        obtain ⟨m, res, acc, ra, fa, hl⟩ := h.accs s hs0
        have kk : ∀ {k : Pubkey} {wa p b : Pubkey}, cfg.ata wa p s.mint b = some k →
            r.l2.tok k = w.led.tok k := by
          intro k wa p b hk
          have n1 : k ≠ r.a.poolReserves.key := by
            rintro rfl; exact hne (cfg.ata_inj hk r.sel.res_eq).2.2
          have n2 : k ≠ r.a.protocolFeeAccumulator.key := by
            rintro rfl; exact hne (cfg.ata_inj hk r.accum).2.2
          rw [f2, f1]; simp [upd_ne _ _ n1, upd_ne _ _ n2]
        have hmn : r.l2.mints = w.led.mints := by rw [f2, f1]; rfl
        exact ⟨m, res, acc, ra, fa, ⟨by rw [hmn]; exact hl.mint, hl.prog, hl.res_key, hl.acc_key,
          by rw [kk hl.res_key]; exact hl.res, by rw [kk hl.acc_key]; exact hl.acc, hl.ra_owner, hl.fa_owner,
          hl.ra_mint, hl.fa_mint, hl.ra_prog, hl.fa_prog⟩⟩
      · have hid := hctl.ident hadd (fun i hi => hrem ⟨i, hi⟩)
        intro s hs
        have : s.ident ∈ w.ctl.lsts.map LstState.ident := by rw [← hid]; exact List.mem_map_of_mem hs
        obtain ⟨s0, hs0, he0⟩ := List.mem_map.1 this
        obtain ⟨m, res, acc, ra, fa, hl⟩ := h.accs s0 hs0
        simp only [LstState.ident, Prod.mk.injEq] at he0
        have hl := hl.config he0.1.symm he0.2.1.symm he0.2.2.symm
        have nc : ∀ op ∈ ops, ∀ k tp o, op ≠ .close k tp o := by
          intro op ho k tp o heq
          subst heq
          obtain ⟨i, hi⟩ := hal _ ho
          exact hrem ⟨i, hi⟩
        obtain ⟨m', ra', fa', hl'⟩ := hl.trace ht (fun op ho => nc op ho _) (fun op ho => nc op ho _)
        exact ⟨m', res, acc, ra', fa', hl'⟩
  · by_cases hini : ix = .initialize
    · subst hini
      obtain ⟨r⟩ := processInitialize_inv hix
      obtain ⟨m1, g1, g2, g3, f1⟩ := setMintAuth_ok.1 r.s1
      obtain ⟨m2, k1, k2, k3, f2⟩ := setFreezeAuth_ok.1 r.s2
      intro p hp
      have e1 := congrArg World.ctl r.eq
      have e2 := congrArg World.led r.eq
      rw [e1] at hp
      rw [e2]
      injection hp with hp; subst hp
      rw [f1] at k1
      simp at k1
      have := r.hm; rw [g1] at this; injection this with this
      subst this
      refine ⟨{ m2 with freezeAuth := some cfg.poolState }, by rw [f2]; simp, ?_, ?_, ?_, rfl⟩
      · rw [← k1]; exact r.prog
      · rw [← k1]; exact r.decimals
      · rw [← k1]
    · obtain ⟨q, q', hq, hq', hlp⟩ := hctl.lpMint hini
      intro p hp
      rw [hq'] at hp; injection hp with hp; subst hp
      obtain ⟨m, hm, h1, h2, h3, h4⟩ := h.lp q hq
      obtain ⟨m', hm', e1, e2, e3, e4⟩ := ht.mint hm
      refine ⟨m', hlp ▸ hm', e1.trans h1, e2.trans h2, (e3 h3 ?_).1, e4 h4 ?_⟩
      · intro op ho tp new heq; subst heq; exact hini (hal _ ho).1
      · intro op ho tp new heq; subst heq; exact hini (hal _ ho).1

/-- The invariant is kept by every action. -/
theorem Inv.action {cfg : Cfg} {L : RatioLib} {tx : TxInfo} {w w' : World} {a : Action cfg} (h : Inv cfg w)
    (hr : a.run L tx w = .ok w') : Inv cfg w' := by
  rcases Action.run_ok hr with ⟨hc, he⟩ | ⟨c, ix, rfl, hsig, hdec, hix⟩
  · have ht : Trace cfg w.led [.ext] w'.led := .cons (op := .ext) he (.nil _)
    refine ⟨hc ▸ h.ctl, he.wf h.wf, ?_, ?_⟩
    · intro s hs
      rw [hc] at hs
      obtain ⟨m, res, acc, ra, fa, hl⟩ := h.accs s hs
      obtain ⟨m', ra', fa', hl'⟩ := hl.trace ht (by simp) (by simp)
      exact ⟨m', res, acc, ra', fa', hl'⟩
    · intro p hp
      rw [hc] at hp
      obtain ⟨m, hm, h1, h2, h3, h4⟩ := h.lp p hp
      obtain ⟨m', hm', e1, e2, e3, e4⟩ := ht.mint hm
      exact ⟨m', hm', e1.trans h1, e2.trans h2, (e3 h3 (by simp)).1, e4 h4 (by simp)⟩
  · exact h.ix hix

theorem history_inv {cfg : Cfg} {L : RatioLib} {w : World} (hf : World.Fresh cfg w) (h : List (Tx cfg)) :
    (∀ e ∈ historyEvents L w h, Inv cfg e.pre ∧ Inv cfg e.post) ∧ Inv cfg (runHistory L w h) := by
  obtain ⟨c, r⟩ := historyEvents_chain L w h
  exact c.inv (L := L) r (fun h hr => h.action hr) (Inv.fresh hf)

theorem Reachable.inv {cfg : Cfg} {L : RatioLib} {w : World} (h : Reachable cfg L w) : Inv cfg w := by
  obtain ⟨w₀, hf, h, rfl⟩ := h
  exact (history_inv hf h).2

end S
