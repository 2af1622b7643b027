import Verif.Props.Authority
/-
The LST list and the disable-authority list: C15 (calculators), C17, C18 (changes), C34, C40, C47, C48.
-/
set_option autoImplicit false
namespace S

/-! ### Entries of the LST list -/

theorem mem_same {ls : List LstState} (h : (ls.map LstState.mint).Nodup) {s t : LstState} (hs : s ∈ ls) (ht : t ∈ ls)
    (he : s.mint = t.mint) : s = t := by
  obtain ⟨i, hi⟩ := List.mem_iff_getElem?.1 hs
  obtain ⟨j, hj⟩ := List.mem_iff_getElem?.1 ht
  cases mint_index h hi hj he
  rw [hi] at hj; injection hj

/-- Entries before and after with equal mints, when the configuration of the list is `ls` with entry `i` replaced. -/
theorem entry_of_set {ls ls' : List LstState} (hn : (ls.map LstState.mint).Nodup) {i : Nat} {x y s s' : LstState}
    (hi : ls[i]? = some x) (hm : y.mint = x.mint)
    (he : ls'.map LstState.config = (ls.set i y).map LstState.config) (hs : s ∈ ls) (hs' : s' ∈ ls')
    (hmm : s'.mint = s.mint) : s'.config = s.config ∨ (s = x ∧ s'.config = y.config) := by
  have h1 : s'.config ∈ (ls.set i y).map LstState.config := by rw [← he]; exact List.mem_map_of_mem hs'
  obtain ⟨z, hz, hzc⟩ := List.mem_map.1 h1
  have hzm : z.mint = s'.mint := by have := congrArg LstState.mint hzc; exact this
  rcases List.mem_or_eq_of_mem_set hz with hz | rfl
  · have : z = s := mem_same hn hz hs (hzm.trans hmm)
    subst this; exact .inl hzc.symm
  · have : s = x := mem_same hn hs (List.mem_of_getElem? hi) (by rw [← hmm, ← hzm, hm])
    exact .inr ⟨this, hzc.symm⟩

theorem entry_of_values {ls ls' : List LstState} (hn : (ls.map LstState.mint).Nodup) {s s' : LstState}
    (he : ls'.map LstState.config = ls.map LstState.config) (hs : s ∈ ls) (hs' : s' ∈ ls') (hmm : s'.mint = s.mint) :
    s'.config = s.config := by
  have h1 : s'.config ∈ ls.map LstState.config := by rw [← he]; exact List.mem_map_of_mem hs'
  obtain ⟨z, hz, hzc⟩ := List.mem_map.1 h1
  have hzm : z.mint = s'.mint := by have := congrArg LstState.mint hzc; exact this
  have : z = s := mem_same hn hz hs (hzm.trans hmm)
  subst this; exact hzc.symm

/-- How the configuration of a listed LST can change. -/
theorem CtlStep.entry {cfg : Cfg} {tx : TxInfo} {w : World} {accs : List Acc} {c' : Ctl} {ix : Ix}
    (h : CtlStep cfg tx w accs c' ix) (hi : CtlInv w.ctl) {s s' : LstState} (hs : s ∈ w.ctl.lsts) (hs' : s' ∈ c'.lsts)
    (hm : s'.mint = s.mint) :
    s'.config = s.config ∨
    (∃ i, ix = .disableLstInput i ∧ w.ctl.lsts[i]? = some s ∧ s'.config = { s.config with isInputDisabled := 1 }) ∨
    (∃ i, ix = .enableLstInput i ∧ w.ctl.lsts[i]? = some s ∧ s'.config = { s.config with isInputDisabled := 0 }) ∨
    (∃ i k, ix = .setSolValueCalculator i ∧ w.ctl.lsts[i]? = some s ∧ w.led.exec k = true ∧
      s'.config = { s.config with solValueCalculator := k }) := by
  have hn := hi.mints
  have sy : Syncs w.ctl c' → s'.config = s.config := fun h => entry_of_values hn h.onlyValues.lsts hs hs' hm
  have same : ∀ {t : LstState}, t ∈ w.ctl.lsts → t.mint = s.mint → t.config = s.config := by
    intro t ht he; rw [mem_same hn ht hs he]
  cases ix with
  | syncSolValue i => obtain ⟨p, _, hy⟩ := h; exact .inl (sy hy)
  | swapExactIn args => obtain ⟨p, _, _, _, _, hy⟩ := h; exact .inl (sy hy)
  | swapExactOut args => obtain ⟨p, _, _, _, _, hy⟩ := h; exact .inl (sy hy)
  | addLiquidity args => obtain ⟨p, _, _, _, _, hy⟩ := h; exact .inl (sy hy)
  | removeLiquidity args => obtain ⟨p, _, hy⟩ := h; exact .inl (sy hy)
  | disableLstInput i =>
    obtain ⟨p, x, _, _, hx, rfl⟩ := h
    rcases entry_of_set (y := { x with isInputDisabled := 1 }) hn hx rfl rfl hs hs' hm with e | ⟨rfl, e⟩
    · exact .inl e
    · exact .inr (.inl ⟨i, rfl, hx, e⟩)
  | enableLstInput i =>
    obtain ⟨p, x, _, _, hx, rfl⟩ := h
    rcases entry_of_set (y := { x with isInputDisabled := 0 }) hn hx rfl rfl hs hs' hm with e | ⟨rfl, e⟩
    · exact .inl e
    · exact .inr (.inr (.inl ⟨i, rfl, hx, e⟩))
  | addLst =>
    obtain ⟨p, x, _, _, hfr, _, _, _, _, _, rfl⟩ := h
    rcases List.mem_append.1 hs' with h' | h'
    · exact .inl (same h' hm)
    · simp at h'; subst h'; exact absurd hm.symm (hfr s hs)
  | removeLst i =>
    obtain ⟨p, x, _, _, _, _, rfl⟩ := h
    exact .inl (same (List.mem_of_mem_eraseIdx hs') hm)
  | setSolValueCalculator i =>
    obtain ⟨p, x, prog, _, _, hx, hex, hy⟩ := h
    rcases entry_of_set (y := { x with solValueCalculator := prog }) hn hx rfl hy.onlyValues.lsts hs hs' hm with e | ⟨rfl, e⟩
    · exact .inl e
    · exact .inr (.inr (.inr ⟨i, prog, rfl, hx, hex, e⟩))
  | setAdmin => obtain ⟨p, k, _, _, rfl⟩ := h; exact .inl (same hs' hm)
  | setProtocolFee args => obtain ⟨p, _, _, _, _, rfl⟩ := h; exact .inl (same hs' hm)
  | setProtocolFeeBeneficiary => obtain ⟨p, k, _, _, rfl⟩ := h; exact .inl (same hs' hm)
  | setPricingProgram => obtain ⟨p, k, _, _, _, rfl⟩ := h; exact .inl (same hs' hm)
  | withdrawProtocolFees n => obtain ⟨p, _, _, rfl⟩ := h; exact .inl (same hs' hm)
  | addDisablePoolAuthority => obtain ⟨p, k, _, _, _, rfl⟩ := h; exact .inl (same hs' hm)
  | removeDisablePoolAuthority i => obtain ⟨p, k, _, _, _, rfl⟩ := h; exact .inl (same hs' hm)
  | disablePool => obtain ⟨p, _, _, rfl⟩ := h; exact .inl (same hs' hm)
  | enablePool => obtain ⟨p, _, _, _, rfl⟩ := h; exact .inl (same hs' hm)
  | startRebalance args =>
    obtain ⟨p, x, c2, c3, p2, p3, dm, _, _, _, _, _, _, s2, _, s3, _, _, rfl⟩ := h
    exact .inl (entry_of_values hn (s2.trans s3).onlyValues.lsts hs hs' hm)
  | endRebalance =>
    obtain ⟨p, rr, c1, p1, _, _, _, _, hy, _, _, rfl⟩ := h
    exact .inl (entry_of_values hn hy.onlyValues.lsts hs hs' hm)
  | setRebalanceAuthority => obtain ⟨p, k, _, _, rfl⟩ := h; exact .inl (same hs' hm)
  | «initialize» => obtain ⟨k, _, _, rfl⟩ := h; exact .inl (same hs' hm)

/-- The admin of the pool at the start of the event signed it. -/
def AdminSigned {cfg : Cfg} (e : Event cfg) (accs : List Acc) : Prop :=
  ∃ p, e.pre.ctl.pool = some p ∧ SignedBy accs p.admin

/-- C15 (calculators) and C34 (input flags): over any history, the calculator of a listed LST changes only in a
SetSolValueCalculator for it, its input flag only in a Disable/EnableLstInput for it, all signed by the admin; the account
bumps of an entry never change. -/
theorem C15_C34_entry_changes {cfg : Cfg} {L : RatioLib} {w₀ : World} (hf : World.Fresh cfg w₀) {h : List (Tx cfg)}
    {e : Event cfg} (he : e ∈ historyEvents L w₀ h) {s s' : LstState} (hs : s ∈ e.pre.ctl.lsts) (hs' : s' ∈ e.post.ctl.lsts)
    (hm : s'.mint = s.mint) :
    s'.poolReservesBump = s.poolReservesBump ∧ s'.protocolFeeAccumulatorBump = s.protocolFeeAccumulatorBump ∧
    (s'.solValueCalculator ≠ s.solValueCalculator → ∃ accs i, e.IsIx accs (.setSolValueCalculator i) ∧
      e.pre.ctl.lsts[i]? = some s ∧ AdminSigned e accs) ∧
    (s'.isInputDisabled ≠ s.isInputDisabled → ∃ accs i,
      (e.IsIx accs (.disableLstInput i) ∧ s'.isInputDisabled = 1 ∨ e.IsIx accs (.enableLstInput i) ∧ s'.isInputDisabled = 0) ∧
      e.pre.ctl.lsts[i]? = some s ∧ AdminSigned e accs) := by
  have hi := ((history_inv hf h).1 e he).1.ctl
  have same : s'.config = s.config → _ := fun hc => by
    have h1 := congrArg LstState.poolReservesBump hc
    have h2 := congrArg LstState.protocolFeeAccumulatorBump hc
    have h3 := congrArg LstState.solValueCalculator hc
    have h4 := congrArg LstState.isInputDisabled hc
    show s'.poolReservesBump = s.poolReservesBump ∧ s'.protocolFeeAccumulatorBump = s.protocolFeeAccumulatorBump ∧
      (s'.solValueCalculator ≠ s.solValueCalculator → ∃ accs i, e.IsIx accs (.setSolValueCalculator i) ∧
        e.pre.ctl.lsts[i]? = some s ∧ AdminSigned e accs) ∧
      (s'.isInputDisabled ≠ s.isInputDisabled → ∃ accs i,
        (e.IsIx accs (.disableLstInput i) ∧ s'.isInputDisabled = 1 ∨ e.IsIx accs (.enableLstInput i) ∧ s'.isInputDisabled = 0) ∧
        e.pre.ctl.lsts[i]? = some s ∧ AdminSigned e accs)
    exact ⟨h1, h2, fun hne => absurd h3 hne, fun hne => absurd h4 hne⟩
  rcases event_cases he with ⟨hc, _⟩ | ⟨env, accs, ix, hx, _, hpr⟩
  · rw [hc] at hs'
    exact same (by rw [mem_same hi.mints hs' hs hm])
  · have ha := C14_authorized hpr
    rcases (processIx_ctl hpr).entry hi hs hs' hm with hc | ⟨i, rfl, hg, hc⟩ | ⟨i, rfl, hg, hc⟩ | ⟨i, k, rfl, hg, _, hc⟩
    · exact same hc
    all_goals
      have h1 := congrArg LstState.poolReservesBump hc
      have h2 := congrArg LstState.protocolFeeAccumulatorBump hc
      have h3 := congrArg LstState.solValueCalculator hc
      have h4 := congrArg LstState.isInputDisabled hc
    · exact ⟨h1, h2, fun hne => absurd h3 hne, fun _ => ⟨accs, i, .inl ⟨hx, h4⟩, hg, ha⟩⟩
    · exact ⟨h1, h2, fun hne => absurd h3 hne, fun _ => ⟨accs, i, .inr ⟨hx, h4⟩, hg, ha⟩⟩
    · exact ⟨h1, h2, fun _ => ⟨accs, i, hx, hg, ha⟩, fun hne => absurd h4 hne⟩

example : (Ex.st2 18).ctl.lsts.map (fun s => (s.mint, s.isInputDisabled)) = [(21, 0), (22, 0)] ∧
    (Ex.st2 19).ctl.lsts.map (fun s => (s.mint, s.isInputDisabled)) = [(21, 1), (22, 0)] ∧
    (Ex.st2 21).ctl.lsts.map (fun s => (s.mint, s.solValueCalculator)) = [(21, 32), (22, 32)] := by decide +kernel

/-- The set of listed LSTs changes only by AddLst (one new entry at the end, with zero value and enabled) and RemoveLst (one
entry deleted), signed by the admin; all other entries keep mint, position and order. -/
theorem lst_set_changes {cfg : Cfg} {L : RatioLib} {w₀ : World} {h : List (Tx cfg)}
    {e : Event cfg} (he : e ∈ historyEvents L w₀ h) :
    (e.post.ctl.lsts.map fun s => s.mint) = (e.pre.ctl.lsts.map fun s => s.mint) ∨
    (∃ accs s, e.IsIx accs .addLst ∧ AdminSigned e accs ∧ e.post.ctl.lsts = e.pre.ctl.lsts ++ [s] ∧
      s.solValue = 0 ∧ s.isInputDisabled = 0) ∨
    (∃ accs i, e.IsIx accs (.removeLst i) ∧ AdminSigned e accs ∧ e.post.ctl.lsts = e.pre.ctl.lsts.eraseIdx i) := by
  rcases event_cases he with ⟨hc, _⟩ | ⟨env, accs, ix, hx, _, hpr⟩
  · rw [hc]; exact .inl rfl
  · have hc := processIx_ctl hpr
    have ha := C14_authorized hpr
    by_cases h1 : ix = .addLst
    · subst h1
      obtain ⟨p, s, _, _, _, h0, h0', _, _, _, e'⟩ := hc
      exact .inr (.inl ⟨accs, s, hx, ha, by rw [e'], h0, h0'⟩)
    · by_cases h2 : ∃ i, ix = .removeLst i
      · obtain ⟨i, rfl⟩ := h2
        obtain ⟨p, s, _, _, _, _, e'⟩ := hc
        exact .inr (.inr ⟨accs, i, hx, ha, by rw [e']⟩)
      · have := hc.ident h1 (fun i hi => h2 ⟨i, hi⟩)
        have := congrArg (List.map Prod.fst) this
        simp only [List.map_map] at this
        exact .inl this

/-! ### C17 -/

theorem RemoveLstAccs.load_get {accs : List Acc} {a : RemoveLstAccs} (h : RemoveLstAccs.load accs = .ok a) :
    accs[2]? = some a.lstMint ∧ accs[3]? = some a.poolReserves ∧ accs[4]? = some a.protocolFeeAccumulator := by
  unfold RemoveLstAccs.load at h; split at h
  · injection h with h; subst h; exact ⟨rfl, rfl, rfl⟩
  · cases h

/-- C17: a RemoveLst at index `i` succeeds only when the entry at `i` is that of the LST mint passed, has recorded value 0, and
its reserves and fee accumulator (the derived accounts of that LST) hold 0 tokens. It removes exactly that entry, closes
exactly those two accounts, and changes nothing else: pool record (with the total), disable authorities, mints and all other
token accounts stay as they are. -/
theorem C17_remove_lst {cfg : Cfg} {L : RatioLib} {env : Env cfg} {tx : TxInfo} {w w' : World} {accs : List Acc} {i : Nat}
    (h : processIx cfg L env tx w accs (.removeLst i) = .ok w') :
    ∃ s mint res acc m ra fa, w.ctl.lsts[i]? = some s ∧ accs[2]? = some mint ∧ accs[3]? = some res ∧ accs[4]? = some acc ∧
      s.mint = mint.key ∧ w.led.mints s.mint = some m ∧
      cfg.ata cfg.poolState m.program s.mint s.poolReservesBump = some res.key ∧
      cfg.ata cfg.protocolFee m.program s.mint s.protocolFeeAccumulatorBump = some acc.key ∧
      w.led.tok res.key = some ra ∧ w.led.tok acc.key = some fa ∧
      s.solValue = 0 ∧ ra.amount = 0 ∧ fa.amount = 0 ∧
      w'.ctl = { w.ctl with lsts := w.ctl.lsts.eraseIdx i } ∧
      w'.led.tok res.key = none ∧ w'.led.tok acc.key = none ∧
      (∀ k, k ≠ res.key → k ≠ acc.key → w'.led.tok k = w.led.tok k) ∧
      w'.led.mints = w.led.mints ∧ w'.led.exec = w.led.exec := by
  obtain ⟨r⟩ := processRemoveLst_inv h
  obtain ⟨g2, g3, g4⟩ := RemoveLstAccs.load_get r.load
  obtain ⟨m, hm, hmp⟩ := r.sel.prog
  have hres := r.sel.res_eq
  have hacc := r.accum
  obtain ⟨x1, _, _, _, _, f1⟩ := closeToken_ok.1 r.c1
  obtain ⟨x2, _, _, _, _, f2⟩ := closeToken_ok.1 r.c2
  have e1 := congrArg World.ctl r.eq
  have e2 : w'.led = r.l2 := by have e := congrArg World.led r.eq; exact e
  have hne : r.a.protocolFeeAccumulator.key ≠ r.a.poolReserves.key := by
    intro he
    rw [he] at hacc
    exact cfg.pool_ne_fee (cfg.ata_inj hres hacc).1
  refine ⟨r.s, _, _, _, m, r.ra, r.fa, r.sel.get, g2, g3, g4, r.sel.mint_eq, r.sel.mint_eq ▸ hm, hmp ▸ hres, hmp ▸ hacc,
    r.hra, r.hfa, r.sol0, r.ra0, r.fa0, e1, ?_, ?_, ?_, ?_, ?_⟩
  · rw [e2, f2]; simp
  · rw [e2, f2, f1]; simp [upd_ne _ _ hne]
  · intro k h1 h2; rw [e2, f2, f1]; simp [upd_ne _ _ h1, upd_ne _ _ h2]
  · rw [e2, f2, f1]; rfl
  · rw [e2, f2, f1]; rfl

example : (runHistory .ex Ex.w0 (Ex.histRemove.take 3)).ctl.lsts.map (·.mint) = [21, 22] ∧
    (runHistory .ex Ex.w0 Ex.histRemove).ctl.lsts.map (·.mint) = [22] ∧
    (runHistory .ex Ex.w0 Ex.histRemove).led.tok Ex.resA = none ∧
    ((Tx.run .ex (Ex.st 9) Ex.tRemoveA).toOption.map fun _ => ()) = none := by decide +kernel

/-! ### C18 -/

/-- C18 (second part): the disable-authority list changes only by AddDisablePoolAuthority, signed by the admin, appending the
account passed at position 3, which was not on it, or by RemoveDisablePoolAuthority, signed by the admin or by the authority
removed, deleting exactly that entry. -/
theorem C18_changes {cfg : Cfg} {L : RatioLib} {w₀ : World} {h : List (Tx cfg)} {e : Event cfg}
    (he : e ∈ historyEvents L w₀ h) :
    e.post.ctl.auths = e.pre.ctl.auths ∨
    (∃ accs k p, e.IsIx accs .addDisablePoolAuthority ∧ e.pre.ctl.pool = some p ∧ SignedBy accs p.admin ∧
      (∃ a, accs[3]? = some a ∧ a.key = k) ∧ k ∉ e.pre.ctl.auths ∧ e.post.ctl.auths = e.pre.ctl.auths ++ [k]) ∨
    (∃ accs i k p, e.IsIx accs (.removeDisablePoolAuthority i) ∧ e.pre.ctl.pool = some p ∧
      e.pre.ctl.auths[i]? = some k ∧ (SignedBy accs p.admin ∨ SignedBy accs k) ∧
      e.post.ctl.auths = e.pre.ctl.auths.eraseIdx i) := by
  rcases event_cases he with ⟨hc, _⟩ | ⟨env, accs, ix, hx, _, hpr⟩
  · rw [hc]; exact .inl rfl
  · cases ix with
    | addDisablePoolAuthority =>
      obtain ⟨a, p, hl, hp, hk, hsig, hni, e'⟩ := processAddAuth_inv hpr
      refine .inr (.inl ⟨accs, a.newAuthority.key, p, hx, hp, ⟨_, a.load_mem hl, hsig, hk⟩, ?_, hni, by rw [e']⟩)
      unfold AddAuthAccs.load at hl; split at hl
      · injection hl with hl; subst hl; exact ⟨_, rfl, rfl⟩
      · cases hl
    | removeDisablePoolAuthority i =>
      obtain ⟨p, k, hp, hk, hor, e'⟩ := processIx_ctl hpr
      exact .inr (.inr ⟨accs, i, k, p, hx, hp, hk, hor, by rw [e']⟩)
    | syncSolValue i => obtain ⟨p, _, hs⟩ := processIx_ctl hpr; exact .inl hs.onlyValues.auths
    | swapExactIn args => obtain ⟨p, s, _, _, _, hs⟩ := processIx_ctl hpr; exact .inl hs.onlyValues.auths
    | swapExactOut args => obtain ⟨p, s, _, _, _, hs⟩ := processIx_ctl hpr; exact .inl hs.onlyValues.auths
    | addLiquidity args => obtain ⟨p, s, _, _, _, hs⟩ := processIx_ctl hpr; exact .inl hs.onlyValues.auths
    | removeLiquidity args => obtain ⟨p, _, hs⟩ := processIx_ctl hpr; exact .inl hs.onlyValues.auths
    | disableLstInput i => obtain ⟨p, s, _, _, _, e'⟩ := processIx_ctl hpr; exact .inl (by rw [e'])
    | enableLstInput i => obtain ⟨p, s, _, _, _, e'⟩ := processIx_ctl hpr; exact .inl (by rw [e'])
    | addLst => obtain ⟨p, s, _, _, _, _, _, _, _, _, e'⟩ := processIx_ctl hpr; exact .inl (by rw [e'])
    | removeLst i => obtain ⟨p, s, _, _, _, _, e'⟩ := processIx_ctl hpr; exact .inl (by rw [e'])
    | setSolValueCalculator i =>
      obtain ⟨p, s, prog, _, _, _, _, hs⟩ := processIx_ctl hpr; exact .inl hs.onlyValues.auths
    | setAdmin => obtain ⟨p, k, _, _, e'⟩ := processIx_ctl hpr; exact .inl (by rw [e'])
    | setProtocolFee args => obtain ⟨p, _, _, _, _, e'⟩ := processIx_ctl hpr; exact .inl (by rw [e'])
    | setProtocolFeeBeneficiary => obtain ⟨p, k, _, _, e'⟩ := processIx_ctl hpr; exact .inl (by rw [e'])
    | setPricingProgram => obtain ⟨p, k, _, _, _, e'⟩ := processIx_ctl hpr; exact .inl (by rw [e'])
    | withdrawProtocolFees n => obtain ⟨p, _, _, e'⟩ := processIx_ctl hpr; exact .inl (by rw [e'])
    | disablePool => obtain ⟨p, _, _, e'⟩ := processIx_ctl hpr; exact .inl (by rw [e'])
    | enablePool => obtain ⟨p, _, _, _, e'⟩ := processIx_ctl hpr; exact .inl (by rw [e'])
    | startRebalance args =>
      obtain ⟨p, s, c2, c3, p2, p3, dm, _, _, _, _, _, _, s2, _, s3, _, _, e'⟩ := processIx_ctl hpr
      exact .inl (by rw [e']; exact (s2.trans s3).onlyValues.auths)
    | endRebalance =>
      obtain ⟨p, rr, c1, p1, _, _, _, _, hy, _, _, e'⟩ := processIx_ctl hpr
      exact .inl (by rw [e']; exact hy.onlyValues.auths)
    | setRebalanceAuthority => obtain ⟨p, k, _, _, e'⟩ := processIx_ctl hpr; exact .inl (by rw [e'])
    | «initialize» => obtain ⟨k, _, _, e'⟩ := processIx_ctl hpr; exact .inl (by rw [e'])

example : (Ex.st2 11).ctl.auths = [50, 51] ∧ (Ex.st2 12).ctl.auths = [50] := by decide +kernel

/-! ### C34 -/

/-- C34 (first part): while the input of the LST at index `i` is disabled, it cannot be the source of a swap, a deposit, or the
destination of a rebalance. -/
theorem C34_input_disabled_refused {cfg : Cfg} (L : RatioLib) (env : Env cfg) (tx : TxInfo) (w : World) (accs : List Acc)
    (ix : Ix) {i : Nat} {s : LstState} (hs : w.ctl.lsts[i]? = some s) (hd : s.isInputDisabled ≠ 0)
    (hix : (∃ a, ix = .swapExactIn a ∧ a.srcLstIndex = i) ∨ (∃ a, ix = .swapExactOut a ∧ a.srcLstIndex = i) ∨
      (∃ a, ix = .addLiquidity a ∧ a.lstIndex = i) ∨ (∃ a, ix = .startRebalance a ∧ a.dstLstIndex = i)) :
    ∃ err, processIx cfg L env tx w accs ix = .error err := by
  cases h : processIx cfg L env tx w accs ix with
  | error err => exact ⟨err, rfl⟩
  | ok w' =>
    have hc := processIx_ctl h
    have u : ∀ {t : LstState}, w.ctl.lsts[i]? = some t → t.isInputDisabled = 0 → False := by
      intro t ht h0; rw [hs] at ht; injection ht with ht; subst ht; exact hd h0
    rcases hix with ⟨a, rfl, rfl⟩ | ⟨a, rfl, rfl⟩ | ⟨a, rfl, rfl⟩ | ⟨a, rfl, rfl⟩
    · obtain ⟨p, t, _, ht, h0, _⟩ := hc; exact (u ht h0).elim
    · obtain ⟨p, t, _, ht, h0, _⟩ := hc; exact (u ht h0).elim
    · obtain ⟨p, t, _, ht, h0, _⟩ := hc; exact (u ht h0).elim
    · obtain ⟨p, t, c2, c3, p2, p3, dm, _, _, ht, h0, _⟩ := hc; exact (u ht h0).elim

-- LST 0 input-disabled in `Ex.st2 19`: deposits of it fail, redemptions into it work (33 is the pricing program by then).
example : ((Tx.run .ex (Ex.st2 18) [Ex.call (Ex.liqA.set 12 (Ex.ro 33)) (.addLiquidity ⟨1, 0, 30000, 1⟩)]).toOption.map
      fun _ => ()) = some () ∧
    ((Tx.run .ex (Ex.st2 19) [Ex.call (Ex.liqA.set 12 (Ex.ro 33)) (.addLiquidity ⟨1, 0, 30000, 1⟩)]).toOption.map
      fun _ => ()) = none ∧
    ((Tx.run .ex (Ex.st2 19) [Ex.call (Ex.liqA.set 12 (Ex.ro 33)) (.removeLiquidity ⟨1, 0, 10000, 1⟩)]).toOption.map
      fun _ => ()) = some () := by decide +kernel

/-! ### C40 -/

/-- C40: a successful Initialize found no pool, was signed by the fixed initial authority, used an SPL-token LP mint of zero
supply and 9 decimals whose authorities that signer held, made the pool state PDA its mint and freeze authority, stored the
documented defaults, and changed nothing else. -/
theorem C40_initialize {cfg : Cfg} {L : RatioLib} {env : Env cfg} {tx : TxInfo} {w w' : World} {accs : List Acc}
    (h : processIx cfg L env tx w accs .initialize = .ok w') :
    ∃ lp m, accs[3]? = some lp ∧ w.ctl.pool = none ∧ SignedBy accs cfg.initialAuthority ∧
      w.led.mints lp.key = some m ∧ m.program = cfg.splToken ∧ m.supply = 0 ∧ m.decimals = 9 ∧
      m.mintAuth = some cfg.initialAuthority ∧ m.freezeAuth = some cfg.initialAuthority ∧
      w'.led.mints lp.key = some { m with mintAuth := some cfg.poolState, freezeAuth := some cfg.poolState } ∧
      (∀ k, k ≠ lp.key → w'.led.mints k = w.led.mints k) ∧ w'.led.tok = w.led.tok ∧
      w'.ctl.lsts = w.ctl.lsts ∧ w'.ctl.auths = w.ctl.auths ∧ w'.ctl.rebal = w.ctl.rebal ∧
      w'.ctl.pool = some
        { totalSolValue := 0, tradingProtocolFeeBps := 1000, lpProtocolFeeBps := 1000, version := 1, isDisabled := 0,
          isRebalancing := 0, admin := cfg.initialAuthority, rebalanceAuthority := cfg.initialAuthority,
          protocolFeeBeneficiary := cfg.initialAuthority, pricingProgram := cfg.flatFeeProgram,
          lpTokenMint := lp.key } := by
  obtain ⟨r⟩ := processInitialize_inv h
  obtain ⟨m1, g1, _, g3, f1⟩ := setMintAuth_ok.1 r.s1
  obtain ⟨m2, k1, _, k3, f2⟩ := setFreezeAuth_ok.1 r.s2
  have := r.hm; rw [g1] at this; injection this with this; subst this
  rw [f1] at k1; simp at k1
  have e1 := congrArg World.ctl r.eq
  have e2 : w'.led = r.l2 := by have e := congrArg World.led r.eq; exact e
  have hfz : r.m.freezeAuth = some cfg.initialAuthority := by rw [← k3, ← k1]
  refine ⟨r.a.lpTokenMint, r.m, ?_, r.fresh, ⟨_, r.a.load_mem r.load, r.signer, r.authority⟩, g1, r.prog, r.supply0,
    r.decimals, g3, hfz, ?_, ?_, ?_, by rw [e1], by rw [e1], by rw [e1], by rw [e1]⟩
  · have hl := r.load
    unfold InitializeAccs.load at hl; split at hl
    · injection hl with hl; rw [← hl]; rfl
    · cases hl
  · rw [e2, f2]; simp [← k1]
  · intro k hk; rw [e2, f2, f1]; simp [upd_ne _ _ hk]
  · rw [e2, f2, f1]; rfl

/-- Once a pool exists Initialize fails, whatever its accounts. -/
theorem C40_only_once {cfg : Cfg} (L : RatioLib) (env : Env cfg) (tx : TxInfo) (w : World) (accs : List Acc)
    (hp : w.ctl.pool ≠ none) : ∃ err, processIx cfg L env tx w accs .initialize = .error err := by
  cases h : processIx cfg L env tx w accs .initialize with
  | error err => exact ⟨err, rfl⟩
  | ok w' => obtain ⟨r⟩ := processInitialize_inv h; exact absurd r.fresh hp

/-- In any history at most one Initialize is committed. -/
theorem C40_history {cfg : Cfg} {L : RatioLib} {w₀ : World} {h : List (Tx cfg)} {es₁ es₂ : List (Event cfg)} {e : Event cfg}
    (he : historyEvents L w₀ h = es₁ ++ e :: es₂) {accs : List Acc} (hx : e.IsIx accs .initialize) :
    (∀ x ∈ es₂, ∀ a, ¬ x.IsIx a .initialize) ∧ ∀ x ∈ es₁, ∀ a, ¬ x.IsIx a .initialize := by
  obtain ⟨hch, hall⟩ := historyEvents_chain L w₀ h
  have stay : ∀ {tx : TxInfo} {a : Action cfg} {w w' : World}, w.ctl.pool ≠ none → a.run L tx w = .ok w' →
      w'.ctl.pool ≠ none := by
    intro tx a w w' hp hr
    rcases Action.run_ok hr with ⟨hc, _⟩ | ⟨c, ix, _, _, _, hpr⟩
    · rw [hc]; exact hp
    · obtain ⟨p, hp⟩ := Option.ne_none_iff_exists'.1 hp
      obtain ⟨p', hp', _⟩ := (processIx_ctl hpr).poolEffect hp
      rw [hp']; simp
  have after : ∀ {es₁ es₂ : List (Event cfg)} {e : Event cfg}, historyEvents L w₀ h = es₁ ++ e :: es₂ →
      ∀ {accs : List Acc}, e.IsIx accs .initialize → ∀ x ∈ es₂, ∀ a, ¬ x.IsIx a .initialize := by
    intro es₁ es₂ e he accs hx x hxm a hxi
    rw [he] at hch
    obtain ⟨m, _, hc2⟩ := hch.split
    obtain ⟨env, hpr, _⟩ := hx.process (L := L) (w₀ := w₀) (h := h) (by rw [he]; simp)
    obtain ⟨lp, m, _, _, _, _, _, _, _, _, _, _, _, _, _, _, _, hctl⟩ := C40_initialize hpr
    cases hc2 with
    | cons hc3 =>
      have := (hc3.inv (L := L) (P := fun w => w.ctl.pool ≠ none) (fun y hy => hall y (by rw [he]; simp [hy])) stay
        (by rw [hctl]; simp)).1 x hxm
      obtain ⟨env', hpr', _⟩ := hxi.process (L := L) (w₀ := w₀) (h := h) (by rw [he]; simp [hxm])
      obtain ⟨err, herr⟩ := C40_only_once L env' x.tx x.pre a this.1
      rw [herr] at hpr'; cases hpr'
  refine ⟨after he hx, ?_⟩
  intro x hxm a hxi
  obtain ⟨f₁, f₂, rfl⟩ := List.append_of_mem hxm
  exact after (es₁ := f₁) (es₂ := f₂ ++ e :: es₂) (by rw [he]; simp) hxi e (by simp) accs hx

example : (Ex.st 1).ctl.pool.map (·.admin) = some 6 ∧ ((Tx.run .ex (Ex.st 1) Ex.tInit).toOption.map fun _ => ()) = none := by
  decide +kernel

/-! ### C47 -/

/-- The indices of the LSTs a user instruction is about. -/
def Ix.userIndices : Ix → Option (List Nat)
  | .syncSolValue i => some [i]
  | .swapExactIn a => some [a.srcLstIndex, a.dstLstIndex]
  | .swapExactOut a => some [a.srcLstIndex, a.dstLstIndex]
  | .addLiquidity a => some [a.lstIndex]
  | .removeLiquidity a => some [a.lstIndex]
  | _ => none

theorem sync_get {c c' : Ctl} {i v j : Nat} (h : c.sync i v = .ok c') (hne : j ≠ i) : c'.lsts[j]? = c.lsts[j]? := by
  obtain ⟨p, s, hf⟩ := ctlSync_ok.1 h
  rw [hf.eq]
  show (c.lsts.set i _)[j]? = _
  rw [List.getElem?_set_ne (fun h => hne h.symm)]

/-- C47: a sync, swap or liquidity instruction changes nothing in the controller's accounts but recorded SOL values: the pool
record keeps all fields but the total, every LST keeps its position and all fields but its value, LSTs other than those the
instruction is about keep their value too, and disable authorities and rebalance record stay as they are. -/
theorem C47_user_instructions {cfg : Cfg} {L : RatioLib} {env : Env cfg} {tx : TxInfo} {w w' : World} {accs : List Acc} {ix : Ix}
    {is : List Nat} (h : processIx cfg L env tx w accs ix = .ok w') (hu : ix.userIndices = some is) :
    (∃ p t, w.ctl.pool = some p ∧ w'.ctl.pool = some { p with totalSolValue := t }) ∧
    (∀ j : Nat, (w'.ctl.lsts[j]?).map (fun s : LstState => { s with solValue := 0 }) = (w.ctl.lsts[j]?).map (fun s : LstState => { s with solValue := 0 })) ∧
    (∀ j : Nat, j ∉ is → w'.ctl.lsts[j]? = w.ctl.lsts[j]?) ∧
    w'.ctl.auths = w.ctl.auths ∧ w'.ctl.rebal = w.ctl.rebal := by
  have key : Syncs w.ctl w'.ctl → w.ctl.pool ≠ none →
      (∃ p t, w.ctl.pool = some p ∧ w'.ctl.pool = some { p with totalSolValue := t }) ∧
      (∀ j : Nat, (w'.ctl.lsts[j]?).map (fun s : LstState => { s with solValue := 0 }) =
        (w.ctl.lsts[j]?).map (fun s : LstState => { s with solValue := 0 })) ∧
      w'.ctl.auths = w.ctl.auths ∧ w'.ctl.rebal = w.ctl.rebal := by
    intro hs hp
    have ov := hs.onlyValues
    obtain ⟨p, hp⟩ := Option.ne_none_iff_exists'.1 hp
    obtain ⟨t, ht⟩ := ov.pool p hp
    refine ⟨⟨p, t, hp, ht⟩, ?_, ov.auths, ov.rebal⟩
    intro j
    have := congrArg (·[j]?) ov.lsts
    simp only [List.getElem?_map] at this
    exact this
  have fin : Syncs w.ctl w'.ctl → w.ctl.pool ≠ none → (∀ j : Nat, j ∉ is → w'.ctl.lsts[j]? = w.ctl.lsts[j]?) → _ :=
    fun a b c => (⟨(key a b).1, (key a b).2.1, c, (key a b).2.2⟩ :
      (∃ p t, w.ctl.pool = some p ∧ w'.ctl.pool = some { p with totalSolValue := t }) ∧
      (∀ j : Nat, (w'.ctl.lsts[j]?).map (fun s : LstState => { s with solValue := 0 }) =
        (w.ctl.lsts[j]?).map (fun s : LstState => { s with solValue := 0 })) ∧
      (∀ j : Nat, j ∉ is → w'.ctl.lsts[j]? = w.ctl.lsts[j]?) ∧ w'.ctl.auths = w.ctl.auths ∧ w'.ctl.rebal = w.ctl.rebal)
  cases ix with
  | syncSolValue i =>
    obtain ⟨r⟩ := processSync_inv h
    simp only [Ix.userIndices, Option.some.injEq] at hu; subst hu
    refine fin r.run.syncs (by rw [r.pool]; simp) ?_
    intro j hj; simp at hj; exact sync_get r.run.sync hj
  | swapExactIn args =>
    obtain ⟨_, ⟨r⟩⟩ := processSwapExactIn_inv h
    simp only [Ix.userIndices, Option.some.injEq] at hu; subst hu
    refine fin r.toSwapRun.syncs (by rw [r.ver.pool]; simp) ?_
    intro j hj; simp at hj
    rw [sync_get r.fin.sync6.sync hj.2, sync_get r.fin.sync5.sync hj.1]
    show r.w2.ctl.lsts[j]? = _
    rw [sync_get r.sync1.sync hj.2, sync_get r.sync0.sync hj.1]
  | swapExactOut args =>
    obtain ⟨_, ⟨r⟩⟩ := processSwapExactOut_inv h
    simp only [Ix.userIndices, Option.some.injEq] at hu; subst hu
    refine fin r.toSwapRun.syncs (by rw [r.ver.pool]; simp) ?_
    intro j hj; simp at hj
    rw [sync_get r.fin.sync6.sync hj.2, sync_get r.fin.sync5.sync hj.1]
    show r.w2.ctl.lsts[j]? = _
    rw [sync_get r.sync1.sync hj.2, sync_get r.sync0.sync hj.1]
  | addLiquidity args =>
    obtain ⟨r⟩ := processAddLiquidity_inv h
    simp only [Ix.userIndices, Option.some.injEq] at hu; subst hu
    refine fin (r.sync0.syncs.trans r.sync3.syncs) (by rw [r.ver.pool]; simp) ?_
    intro j hj; simp at hj
    rw [sync_get r.sync3.sync hj]
    show r.w1.ctl.lsts[j]? = _
    rw [sync_get r.sync0.sync hj]
  | removeLiquidity args =>
    obtain ⟨r⟩ := processRemoveLiquidity_inv h
    simp only [Ix.userIndices, Option.some.injEq] at hu; subst hu
    refine fin (r.sync0.syncs.trans r.sync3.syncs) (by rw [r.ver.pool]; simp) ?_
    intro j hj; simp at hj
    rw [sync_get r.sync3.sync hj]
    show r.w1.ctl.lsts[j]? = _
    rw [sync_get r.sync0.sync hj]
  | _ => cases hu

example : (Ex.st 5).ctl.lsts.map (·.solValue) = [30000, 30000] ∧ (Ex.st 6).ctl.lsts.map (·.solValue) = [33000, 27027] := by
  decide +kernel

/-! ### C48 -/

/-- C48: DisablePool is signed by the admin or a listed disable authority, finds an active pool and sets only the disabled
flag. -/
theorem C48_disable {cfg : Cfg} {L : RatioLib} {env : Env cfg} {tx : TxInfo} {w w' : World} {accs : List Acc}
    (h : processIx cfg L env tx w accs .disablePool = .ok w') :
    ∃ p, w.ctl.pool = some p ∧ p.isDisabled = 0 ∧ p.isRebalancing = 0 ∧
      (SignedBy accs p.admin ∨ ∃ k ∈ w.ctl.auths, SignedBy accs k) ∧
      w' = { w with ctl := { w.ctl with pool := some { p with isDisabled := 1 } } } := by
  obtain ⟨a, p, hl, hp, hsig, hr, hd, hor, rfl⟩ := processDisablePool_inv h
  exact ⟨p, hp, hd, hr, hor.imp (fun e => ⟨_, a.load_mem hl, hsig, e⟩) (fun e => ⟨_, e, _, a.load_mem hl, hsig, rfl⟩), rfl⟩

/-- C48: EnablePool is signed by the admin, finds a disabled pool and clears only that flag. -/
theorem C48_enable {cfg : Cfg} {L : RatioLib} {env : Env cfg} {tx : TxInfo} {w w' : World} {accs : List Acc}
    (h : processIx cfg L env tx w accs .enablePool = .ok w') :
    ∃ p, w.ctl.pool = some p ∧ p.isDisabled ≠ 0 ∧ SignedBy accs p.admin ∧
      w' = { w with ctl := { w.ctl with pool := some { p with isDisabled := 0 } } } := by
  obtain ⟨a, p, hl, hp, hk, hsig, hd, rfl⟩ := processEnablePool_inv h
  exact ⟨p, hp, hd, ⟨_, a.load_mem hl, hsig, hk⟩, rfl⟩

/-- C48: nothing else changes the flag. -/
theorem C48_flag_changes {cfg : Cfg} {L : RatioLib} {w₀ : World} {h : List (Tx cfg)} {e : Event cfg}
    (he : e ∈ historyEvents L w₀ h) {p p' : PoolState} (hp : e.pre.ctl.pool = some p) (hp' : e.post.ctl.pool = some p')
    (hne : p'.isDisabled ≠ p.isDisabled) :
    ∃ accs, (e.IsIx accs .disablePool ∧ p'.isDisabled = 1 ∧ (SignedBy accs p.admin ∨ ∃ k ∈ e.pre.ctl.auths, SignedBy accs k)) ∨
      (e.IsIx accs .enablePool ∧ p'.isDisabled = 0 ∧ SignedBy accs p.admin) := by
  obtain ⟨q, hq, hor⟩ := event_pool he hp
  rw [hp'] at hq; injection hq with hq; subst hq
  rcases hor with rfl | ⟨accs, ix, hx, ha, hpe⟩
  · exact absurd rfl hne
  · cases ix with
    | disablePool =>
      obtain ⟨q, hq, hs⟩ := ha; injection hq with hq; subst hq
      exact ⟨accs, .inl ⟨hx, by rw [hpe], hs⟩⟩
    | enablePool =>
      obtain ⟨q, hq, hs⟩ := ha; injection hq with hq; subst hq
      exact ⟨accs, .inr ⟨hx, by rw [hpe], hs⟩⟩
    | setAdmin => obtain ⟨k, rfl⟩ := hpe; exact absurd rfl hne
    | setProtocolFee args => cases hpe; exact absurd rfl hne
    | setProtocolFeeBeneficiary => obtain ⟨k, rfl⟩ := hpe; exact absurd rfl hne
    | setPricingProgram => obtain ⟨k, rfl⟩ := hpe; exact absurd rfl hne
    | setRebalanceAuthority => obtain ⟨k, rfl⟩ := hpe; exact absurd rfl hne
    | startRebalance args => obtain ⟨t, rfl⟩ := hpe; exact absurd rfl hne
    | endRebalance => obtain ⟨t, rfl⟩ := hpe; exact absurd rfl hne
    | «initialize» => exact hpe.elim
    | syncSolValue i => obtain ⟨t, rfl⟩ := hpe; exact absurd rfl hne
    | swapExactIn args => obtain ⟨t, rfl⟩ := hpe; exact absurd rfl hne
    | swapExactOut args => obtain ⟨t, rfl⟩ := hpe; exact absurd rfl hne
    | addLiquidity args => obtain ⟨t, rfl⟩ := hpe; exact absurd rfl hne
    | removeLiquidity args => obtain ⟨t, rfl⟩ := hpe; exact absurd rfl hne
    | setSolValueCalculator i => obtain ⟨t, rfl⟩ := hpe; exact absurd rfl hne
    | disableLstInput i => cases hpe; exact absurd rfl hne
    | enableLstInput i => cases hpe; exact absurd rfl hne
    | addLst => cases hpe; exact absurd rfl hne
    | removeLst i => cases hpe; exact absurd rfl hne
    | withdrawProtocolFees n => cases hpe; exact absurd rfl hne
    | addDisablePoolAuthority => cases hpe; exact absurd rfl hne
    | removeDisablePoolAuthority i => cases hpe; exact absurd rfl hne

example : (Ex.st2 12).ctl.pool.map (·.isDisabled) = some 0 ∧ (Ex.st2 13).ctl.pool.map (·.isDisabled) = some 1 ∧
    (Ex.st2 14).ctl.pool.map (·.isDisabled) = some 0 := by decide +kernel

end S
