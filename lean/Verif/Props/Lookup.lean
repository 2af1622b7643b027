import Verif.Props.Client
import Verif.Example
import Verif.Proofs.Ledger
/-
C43: the index the client library finds for a mint (or for a disable-pool authority) is the one the program accepts.

The client reads the lists from the chain; the theorems take the list it read to be the list on chain when the instruction
runs.
-/
set_option autoImplicit false
namespace S

/-- What the lookup of a mint has to find: the first entry of the list with that mint. -/
structure FirstWithMint (lsts : List LstState) (mint : Pubkey) (i : Nat) (s : LstState) : Prop where
  get : lsts[i]? = some s
  mint_eq : s.mint = mint
  first : ∀ n t, n < i → lsts[n]? = some t → t.mint ≠ mint

/-- C43: the client finds the first entry with the mint, and fails exactly when no entry has it. -/
theorem C43_find (lsts : List LstState) (mint : Pubkey) :
    (∀ i s, findLst mint lsts = .ok (i, s) ↔ FirstWithMint lsts mint i s) ∧
    ((∃ e, findLst mint lsts = .error e) ↔ ∀ s ∈ lsts, s.mint ≠ mint) := by
  refine ⟨fun i s => findLst_ok.trans ⟨fun ⟨a, b, c⟩ => ⟨a, b, c⟩, fun ⟨a, b, c⟩ => ⟨a, b, c⟩⟩, ?_⟩
  have hn := @findFrom_none _ (fun s : LstState => s.mint == mint) lsts 0
  simp only [beq_eq_false_iff_ne] at hn
  rw [← hn, findLst]
  cases findFrom (fun s : LstState => s.mint == mint) 0 lsts with
  | none => simp [okOr]
  | some x => simp [okOr]

/-- C43: the program's lookup accepts index `i` for a mint exactly when entry `i` exists and has that mint. -/
theorem C43_match (lsts : List LstState) (mint : Pubkey) (i : Nat) (s : LstState) :
    matchLst mint lsts i = .ok s ↔ lsts[i]? = some s ∧ s.mint = mint := matchLst_ok

/-- C43: the index found by the client is accepted on chain and identifies the same entry. Where no mint is listed twice
(C18: always), it is the only index accepted for the mint. -/
theorem C43_client_index {lsts : List LstState} {mint : Pubkey} {i : Nat} {s : LstState}
    (h : findLst mint lsts = .ok (i, s)) :
    matchLst mint lsts i = .ok s ∧
      ((lsts.map (·.mint)).Nodup → ∀ j t, matchLst mint lsts j = .ok t → j = i ∧ t = s) := by
  obtain ⟨hg, hm, _⟩ := findLst_ok.1 h
  refine ⟨matchLst_ok.2 ⟨hg, hm⟩, fun hnd j t hj => ?_⟩
  obtain ⟨hj, htm⟩ := matchLst_ok.1 hj
  obtain ⟨h2, _⟩ := List.getElem?_eq_some_iff.1 hj
  have e : j = i := (List.getElem?_inj (by simpa using h2) hnd).1 (by simp [hg, hj, hm, htm])
  subst e
  rw [hg] at hj; injection hj with hj
  exact ⟨rfl, hj.symm⟩

/-- C43, disable-pool authorities: the client finds the first position of the key, and finds nothing exactly when the key
is not in the list. -/
theorem C43_find_authority (auths : List Pubkey) (k : Pubkey) :
    (∀ i x, findAuth k auths = some (i, x) ↔
      auths[i]? = some x ∧ x = k ∧ ∀ n t, n < i → auths[n]? = some t → t ≠ k) ∧
    (findAuth k auths = none ↔ k ∉ auths) := by
  refine ⟨fun i x => findAuth_some, ?_⟩
  rw [findAuth, findFrom_none]
  simp only [beq_eq_false_iff_ne]
  exact ⟨fun h hk => h k hk rfl, fun h s hs e => h (e ▸ hs)⟩

/-! ### Instructions built by mint -/

/-- The pool is open: neither rebalancing nor disabled. -/
structure Open (w : World) (p : PoolState) : Prop where
  pool : w.ctl.pool = some p
  notReb : p.isRebalancing = 0
  notDis : p.isDisabled = 0

/-- The mint account given to the client is the one on chain. -/
def MintAcc.OnChain (m : MintAcc) (l : Ledger) : Prop := ∃ mi, l.mints m.key = some mi ∧ mi.program = m.owner

theorem resolve_sync_ok {cfg : Cfg} {ls : List LstState} {m : MintAcc} {k : SyncKeys} {i : Nat} {c : Pubkey}
    (h : resolveSync cfg ls m = .ok (k, i, c)) :
    ∃ s, FirstWithMint ls m.key i s ∧ c = s.solValueCalculator ∧ k.lstMint = m.key ∧ k.poolState = cfg.poolState ∧
      k.lstStateList = cfg.lstStateList ∧
      cfg.ata cfg.poolState m.owner s.mint s.poolReservesBump = some k.poolReserves := by
  simp only [resolveSync, bind_ok, Prod.exists, poolReserves_ok, pure_ok, Prod.mk.injEq] at h
  obtain ⟨j, s, hf, r, hr, rfl, rfl, rfl⟩ := h
  exact ⟨s, ((C43_find ls m.key).1 j s).1 hf, rfl, rfl, rfl, rfl, hr⟩

/-- C43, SyncSolValue by mint: on an open pool whose list is the one the client read, the instruction succeeds as soon as
the calculator answers and the total fits, and synchronizes the entry of that mint. -/
theorem C43_sync {cfg : Cfg} {L : RatioLib} {env : Env cfg} {tx : TxInfo} {w : World} {p : PoolState} {m : MintAcc}
    {metas rest accs : List Acc} {ix : TopIx} (hm : metas = roMeta m.key :: rest)
    (h : syncByMint cfg w.ctl.lsts m metas = .ok ix) (hacc : SeenAs ix.accs accs)
    (ho : Open w p) (hon : m.OnChain w.led) :
    ∃ i s res, FirstWithMint w.ctl.lsts m.key i s ∧
      cfg.ata cfg.poolState m.owner s.mint s.poolReservesBump = some res ∧ ∃ seen, SeenAs metas seen ∧
      ∀ acc r l, w.led.tok res = some acc →
        env.askCalc 0 w s.solValueCalculator seen (.lstToSol acc.amount) = .ok (r, l) → r.min < U64 → r.max < U64 →
        s.solValue ≤ p.totalSolValue → p.totalSolValue - s.solValue + r.min < U64 →
        processInstruction cfg L env tx w ix.program accs ix.data =
          .ok ⟨{ w.ctl with
            pool := some { p with totalSolValue := p.totalSolValue - s.solValue + r.min }
            lsts := w.ctl.lsts.set i { s with solValue := r.min } }, l⟩ := by
  simp only [syncByMint, bind_ok, Prod.exists] at h
  obtain ⟨k, i, c, hr, hix⟩ := h
  obtain ⟨s, hs, rfl, k1, k2, k3, k4⟩ := resolve_sync_ok hr
  simp only [syncIx, bind_ok, Prod.exists, indexToU32_ok, extendOne_ok, pure_ok] at hix
  obtain ⟨i', ⟨hi, hi'⟩, _, _, ⟨h8, rfl, rfl⟩, rfl⟩ := hix
  subst hi'
  obtain ⟨a, suf, hl, hk, hsuf⟩ := seen_sync hacc
  simp only [SyncKeys.metas, SyncAccs.list, SeenAs, List.forall₂_cons] at hk
  obtain ⟨e1, e2, e3, e4, -⟩ := hk
  obtain ⟨y, l', rfl, e5, hseen⟩ := hsuf.cons_inv
  refine ⟨_, s, k.poolReserves, hs, k4, roMeta m.key :: l', ?_, ?_⟩
  · rw [hm] at hseen ⊢; exact .cons (.refl _) hseen
  · intro acc r l ht hask hmin hmax hle hlt
    have hw : (Ix.syncSolValue i').Wf := hi
    rw [processInstruction_of_decode _ _ _ _ _ (C38_roundtrip _ hw)]
    show processSync cfg env w accs i' = _
    have hmint : a.lstMint.key = m.key := e1.key.trans k1
    have hver : verifySync cfg w a (y :: l') i' = .ok ⟨s.solValueCalculator, m.key, l'⟩ := by
      simp only [verifySync, bind_ok, require_ok, exists_const, matchLst_ok, mintProgram_ok, poolReserves_ok,
        checkKeys_ok, checkWritable_ok, getPool_ok, verifyActive_ok, verifyCalcCpi_ok, List.forall_mem_cons]
      obtain ⟨mi, hmi, hown⟩ := hon
      refine ⟨e3.key.trans k3, s, ⟨hs.get, hs.mint_eq.trans hmint.symm⟩, m.owner, ⟨mi, hmint ▸ hmi, hown⟩, _, k4,
        ⟨hmint.trans hs.mint_eq.symm, e2.key.trans k2, e3.key.trans k3, e4.key, by simp⟩,
        ⟨e2.writable rfl, e3.writable rfl, by simp⟩, p, ho.pool, ⟨ho.notReb, ho.notDis⟩, y, l', s, rfl, ?_, hs.get,
        e5.key⟩
      rw [hmint, e5.key]; rfl
    simp only [processSync, bind_ok, Prod.exists]
    refine ⟨a, _, hl, _, hver, syncUnchecked_ok.2 ⟨acc, r, ?_, hask, hmin, hmax, ?_⟩⟩
    · rw [e4.key]; exact ht
    · exact ctlSync_ok.2 ⟨p, s, ho.pool, hs.get, hle, hlt, rfl⟩

/-- C43, DisableLstInput and EnableLstInput by mint: on an open pool the instruction sets the flag of the entry with that
mint. -/
theorem C43_lst_input {cfg : Cfg} {L : RatioLib} {env : Env cfg} {tx : TxInfo} {w : World} {p : PoolState} {mint : Pubkey}
    {disable : Bool} {accs : List Acc} {ix : TopIx} (h : lstInputByMint cfg p w.ctl.lsts disable mint = .ok ix)
    (hacc : SeenAs ix.accs accs) (ho : Open w p) :
    ∃ i s, FirstWithMint w.ctl.lsts mint i s ∧
      processInstruction cfg L env tx w ix.program accs ix.data =
        .ok (w.setLsts (w.ctl.lsts.set i { s with isInputDisabled := if disable then 1 else 0 })) := by
  simp only [lstInputByMint, resolveInput, bind_ok, Prod.exists, indexToU32_ok, pure_ok, Prod.mk.injEq] at h
  obtain ⟨k, i, ⟨i', s, hf, rfl, e⟩, i'', ⟨hi, e'⟩, rfl⟩ := h
  subst e e'
  have hs := ((C43_find _ _).1 i'' s).1 hf
  refine ⟨i'', s, hs, ?_⟩
  simp only [InputKeys.metas, SeenAs, List.forall₂_cons_left_iff, List.forall₂_nil_left_iff] at hacc
  obtain ⟨_, _, e1, ⟨_, _, e2, ⟨_, _, e3, ⟨_, _, e4, rfl, rfl⟩, rfl⟩, rfl⟩, rfl⟩ := hacc
  have key : ∀ flag, processSetLstInput cfg w [_, _, _, _] i'' flag =
      .ok (w.setLsts (w.ctl.lsts.set i'' { s with isInputDisabled := flag })) := fun flag => by
    simp only [processSetLstInput, LstInputAccs.load, bind_ok, require_ok, exists_const, okOr_ok, checkKeys_ok,
      checkWritable_ok, checkSigner_ok, getPool_ok, verifyActive_ok, List.forall_mem_cons, Except.ok.injEq]
    exact ⟨_, rfl, e3.key, e4.key, s, hs.get, p, ho.pool, ⟨e1.key, e2.key, e3.key, e4.key, by simp⟩,
      ⟨e3.writable rfl, e4.writable rfl, by simp⟩, ⟨e1.signer rfl, by simp⟩, ⟨ho.notReb, ho.notDis⟩, rfl⟩
  cases disable with
  | true =>
    have hw : (Ix.disableLstInput i'').Wf := hi
    exact (processInstruction_of_decode _ _ _ _ _ (C38_roundtrip _ hw)).trans (key 1)
  | false =>
    have hw : (Ix.enableLstInput i'').Wf := hi
    exact (processInstruction_of_decode _ _ _ _ _ (C38_roundtrip _ hw)).trans (key 0)

/-- C43, RemoveDisablePoolAuthority by key: the admin, or the authority itself, removes exactly the position found. -/
theorem C43_remove_authority {cfg : Cfg} {L : RatioLib} {env : Env cfg} {tx : TxInfo} {w : World} {p : PoolState}
    {refund signer authority : Pubkey} {accs : List Acc} {ix : TopIx}
    (h : removeAuthByPubkey cfg w.ctl.auths refund signer authority = .ok ix)
    (hacc : SeenAs ix.accs accs) (hp : w.ctl.pool = some p) (hsig : signer = p.admin ∨ signer = authority) :
    ∃ i, w.ctl.auths[i]? = some authority ∧
      processInstruction cfg L env tx w ix.program accs ix.data =
        .ok { w with ctl := { w.ctl with auths := w.ctl.auths.eraseIdx i } } := by
  simp only [removeAuthByPubkey, resolveRemoveAuth, bind_ok, Prod.exists, okOr_ok, indexToU32_ok, pure_ok,
    Prod.mk.injEq] at h
  obtain ⟨k, i, ⟨i', x, hf, i'', ⟨hi, e'⟩, rfl, e⟩, rfl⟩ := h
  subst e' e
  obtain ⟨hg, rfl, _⟩ := findAuth_some.1 hf
  refine ⟨_, hg, ?_⟩
  simp only [RemoveAuthKeys.metas, SeenAs, List.forall₂_cons_left_iff, List.forall₂_nil_left_iff] at hacc
  obtain ⟨_, _, e1, ⟨_, _, e2, ⟨_, _, e3, ⟨_, _, e4, ⟨_, _, e5, rfl, rfl⟩, rfl⟩, rfl⟩, rfl⟩, rfl⟩ := hacc
  have hw : (Ix.removeDisablePoolAuthority _).Wf := hi
  refine (processInstruction_of_decode _ _ _ _ _ (C38_roundtrip _ hw)).trans ?_
  show processRemoveAuth _ _ _ _ = _
  simp only [processRemoveAuth, RemoveAuthAccs.load, bind_ok, require_ok, exists_const, okOr_ok, checkKeys_ok,
    checkWritable_ok, checkSigner_ok, getPool_ok, verifyAdminOrAuth_ok, List.forall_mem_cons, Except.ok.injEq]
  have hs' : signer = p.admin ∨ signer ∈ w.ctl.auths := by
    rcases hsig with e | e
    · exact .inl e
    · right; rw [e]; exact List.mem_of_getElem? hg
  refine ⟨_, rfl, e4.key, e5.key, _, hg, ⟨e3.key, e4.key, e5.key, by simp⟩, ⟨e1.writable rfl, e5.writable rfl, by simp⟩,
    ⟨e2.signer rfl, by simp⟩, p, hp, ?_, ?_, rfl⟩
  · rw [e2.key]; exact hs'
  · rw [e2.key, e3.key]; exact hsig

/-- C43, RemoveLst by mint: on an open pool, if the entry has no recorded value and both token accounts exist as opened by
the pool and are empty, the entry found is removed and the two accounts are closed. -/
theorem C43_remove_lst {cfg : Cfg} {L : RatioLib} {env : Env cfg} {tx : TxInfo} {w : World} {p : PoolState}
    {refund : Pubkey} {m : MintAcc} {accs : List Acc} {ix : TopIx}
    (h : removeLstByMint cfg p w.ctl.lsts refund m = .ok ix) (hacc : SeenAs ix.accs accs) (ho : Open w p)
    (hon : m.OnChain w.led) :
    ∃ i s res acc, FirstWithMint w.ctl.lsts m.key i s ∧
      cfg.ata cfg.poolState m.owner s.mint s.poolReservesBump = some res ∧
      cfg.ata cfg.protocolFee m.owner s.mint s.protocolFeeAccumulatorBump = some acc ∧
      (s.solValue = 0 → w.led.tok res = some ⟨m.owner, s.mint, cfg.poolState, 0⟩ →
        w.led.tok acc = some ⟨m.owner, s.mint, cfg.protocolFee, 0⟩ →
        processInstruction cfg L env tx w ix.program accs ix.data =
          .ok ⟨{ w.ctl with lsts := w.ctl.lsts.eraseIdx i }, (w.led.setTok acc none).setTok res none⟩) := by
  simp only [removeLstByMint, resolveRemoveLst, bind_ok, Prod.exists, poolReserves_ok, feeAccumulator_ok, require_ok,
    exists_const, pure_ok, Prod.mk.injEq] at h
  obtain ⟨k, i, ⟨i', s, hf, res, hres, acc, hfee, hi, rfl, e⟩, rfl⟩ := h
  subst e
  have hs := ((C43_find _ _).1 i' s).1 hf
  refine ⟨i', s, res, acc, hs, hres, hfee, fun hv ht1 ht2 => ?_⟩
  simp only [RemoveLstKeys.metas, SeenAs, List.forall₂_cons_left_iff, List.forall₂_nil_left_iff] at hacc
  obtain ⟨_, _, e1, ⟨_, _, e2, ⟨_, _, e3, ⟨_, _, e4, ⟨_, _, e5, ⟨_, _, e6, ⟨_, _, e7, ⟨_, _, e8, ⟨_, _, e9,
    rfl, rfl⟩, rfl⟩, rfl⟩, rfl⟩, rfl⟩, rfl⟩, rfl⟩, rfl⟩, rfl⟩ := hacc
  have hw : (Ix.removeLst i').Wf := hi
  refine (processInstruction_of_decode _ _ _ _ _ (C38_roundtrip _ hw)).trans ?_
  show processRemoveLst _ _ _ _ = _
  have hne : acc ≠ res := by
    rintro rfl
    exact cfg.pool_ne_fee (cfg.ata_inj hres hfee).1
  obtain ⟨mi, hmi, hown⟩ := hon
  have k3 := e3.key; have k4 := e4.key; have k5 := e5.key; have k6 := e6.key; have k7 := e7.key; have k9 := e9.key
  simp only [roMeta, wrMeta] at k3 k4 k5 k6 k7 k9
  simp only [processRemoveLst, RemoveLstAccs.load, bind_ok, require_ok, exists_const, matchLst_ok, mintProgram_ok,
    poolReserves_ok, feeAccumulator_ok, checkKeys_ok, checkWritable_ok, checkSigner_ok, getPool_ok, verifyActive_ok,
    tokenBalance_ok, closeToken_ok, List.forall_mem_cons, Except.ok.injEq, pure_ok]
  refine ⟨_, rfl, e7.key, e8.key, s, ⟨hs.get, hs.mint_eq.trans k3.symm⟩, m.owner, ⟨mi, k3 ▸ hmi, hown⟩, res, hres, acc,
    hfee, p, ho.pool, ⟨e1.key, e4.key, e5.key, e6.key, e7.key, e8.key, e9.key, by simp⟩,
    ⟨e2.writable rfl, e4.writable rfl, e5.writable rfl, e6.writable rfl, e8.writable rfl, by simp⟩,
    ⟨e1.signer rfl, by simp⟩, ⟨ho.notReb, ho.notDis⟩, 0, ⟨_, k4 ▸ ht1, rfl⟩, 0, ⟨_, k5 ▸ ht2, rfl⟩, by simp [hv],
    _, ⟨_, k5 ▸ ht2, k9.symm, k6.symm, rfl, rfl⟩, _, ⟨⟨m.owner, s.mint, cfg.poolState, 0⟩, ?_, k9.symm, k7.symm, rfl, rfl⟩, ?_⟩
  · rw [k4, k5]; simp only [Ledger.setTok, upd]; rw [if_neg hne.symm]; exact ht1
  · rw [k4, k5]

/-- C43, SetSolValueCalculator by mint: on an open pool the instruction succeeds as soon as the new calculator is a program
that answers; the entry of that mint gets the calculator and the new value. -/
theorem C43_set_calculator {cfg : Cfg} {L : RatioLib} {env : Env cfg} {tx : TxInfo} {w : World} {p : PoolState}
    {m : MintAcc} {calculator : Callee} {rest accs : List Acc} {ix : TopIx} (hm : calculator.metas = roMeta m.key :: rest)
    (h : setCalcByMint cfg p w.ctl.lsts m calculator = .ok ix) (hacc : SeenAs ix.accs accs)
    (ho : Open w p) (hon : m.OnChain w.led) :
    ∃ i s res, FirstWithMint w.ctl.lsts m.key i s ∧
      cfg.ata cfg.poolState m.owner s.mint s.poolReservesBump = some res ∧ ∃ seen, SeenAs calculator.metas seen ∧
      ∀ acc r l, w.led.exec calculator.program = true → w.led.tok res = some acc →
        env.askCalc 0 (w.setLsts (w.ctl.lsts.set i { s with solValueCalculator := calculator.program }))
          calculator.program seen (.lstToSol acc.amount) = .ok (r, l) → r.min < U64 → r.max < U64 →
        s.solValue ≤ p.totalSolValue → p.totalSolValue - s.solValue + r.min < U64 →
        processInstruction cfg L env tx w ix.program accs ix.data =
          .ok ⟨{ w.ctl with
            pool := some { p with totalSolValue := p.totalSolValue - s.solValue + r.min }
            lsts := w.ctl.lsts.set i { s with solValueCalculator := calculator.program, solValue := r.min } }, l⟩ := by
  simp only [setCalcByMint, resolveSetCalc, bind_ok, Prod.exists, poolReserves_ok, pure_ok, Prod.mk.injEq] at h
  obtain ⟨k, i, ⟨i', s, hf, res, hres, rfl, e⟩, hix⟩ := h
  subst e
  have hs := ((C43_find _ _).1 i' s).1 hf
  simp only [setCalcIx, bind_ok, Prod.exists, indexToU32_ok, extendOne_ok, pure_ok] at hix
  obtain ⟨i'', ⟨hi, hi'⟩, _, _, ⟨h8, rfl, rfl⟩, rfl⟩ := hix
  subst hi'
  obtain ⟨a, suf, hl, hk, hsuf⟩ := seen_setCalc hacc
  simp only [SetCalcKeys.metas, SetCalcAccs.list, SeenAs, List.forall₂_cons] at hk
  obtain ⟨e1, e2, e3, e4, e5, -⟩ := hk
  obtain ⟨y, l', rfl, e6, hseen⟩ := hsuf.cons_inv
  refine ⟨_, s, res, hs, hres, roMeta m.key :: l', ?_, ?_⟩
  · rw [hm] at hseen ⊢; exact .cons (.refl _) hseen
  · intro acc r l hex ht hask hmin hmax hle hlt
    have hw : (Ix.setSolValueCalculator i'').Wf := hi
    rw [processInstruction_of_decode _ _ _ _ _ (C38_roundtrip _ hw)]
    show processSetSolValueCalculator cfg env w accs i'' = _
    have hmint : a.lstMint.key = m.key := e2.key.trans hs.mint_eq
    obtain ⟨mi, hmi, hown⟩ := hon
    have k6 : y.key = calculator.program := e6.key
    have k4 : a.poolReserves.key = res := e4.key
    simp only [processSetSolValueCalculator, bind_ok, Prod.exists, require_ok, exists_const, matchLst_ok, mintProgram_ok,
      poolReserves_ok, checkKeys_ok, checkWritable_ok, checkSigner_ok, getPool_ok, verifyActive_ok, ofSuffix_ok,
      List.forall_mem_cons]
    refine ⟨a, _, hl, e3.key, e5.key, s, ⟨hs.get, hs.mint_eq.trans hmint.symm⟩, m.owner, ⟨mi, hmint ▸ hmi, hown⟩, _, hres,
      p, ho.pool, ⟨e1.key, e3.key, e4.key, e5.key, by simp⟩, ⟨e3.writable rfl, e5.writable rfl, by simp⟩,
      ⟨e1.signer rfl, by simp⟩, ⟨ho.notReb, ho.notDis⟩, ⟨y.key, a.lstMint.key, l'⟩, ⟨y, l', rfl, rfl⟩, ?_, ?_⟩
    · show w.led.exec y.key = true
      rw [k6]; exact hex
    · rw [hmint, k4]
      show syncUnchecked env 0 (w.setLsts (w.ctl.lsts.set i'' { s with solValueCalculator := y.key })) _
        ⟨y.key, m.key, l'⟩ _ = _
      rw [k6]
      refine syncUnchecked_ok.2 ⟨acc, r, ht, hask, hmin, hmax,
        ctlSync_ok.2 ⟨p, { s with solValueCalculator := calculator.program }, ho.pool, ?_, hle, hlt, ?_⟩⟩
      · simp only [World.setLsts]
        rw [List.getElem?_set_self (List.getElem?_eq_some_iff.1 hs.get).1]
      · simp only [World.setLsts, List.set_set]

/-- What a swap built by mints is checked against on chain. -/
structure SwapReady (w : World) (p : PoolState) (r : SwapRequest) (s : LstState) : Prop where
  isOpen : Open w p
  srcMint : r.src.OnChain w.led
  dstMint : r.dst.OnChain w.led
  differ : r.src.key ≠ r.dst.key
  inputEnabled : s.isInputDisabled = 0
  pricing : r.pricing.program = p.pricingProgram
  srcMetas : ∃ l, r.srcMetas = roMeta r.src.key :: l
  dstMetas : ∃ l, r.dstMetas = roMeta r.dst.key :: l
  priceMetas : ∃ l, r.pricing.metas = roMeta r.src.key :: roMeta r.dst.key :: l

theorem swap_verified {cfg : Cfg} {w : World} {p : PoolState} {r : SwapRequest} {k : SwapKeys} {f : Found}
    {accs : List Acc} (h : resolveSwap cfg w.ctl.lsts r.signer r.srcAcc r.dstAcc r.src r.dst = .ok (k, f)) :
    ∃ s d, FirstWithMint w.ctl.lsts r.src.key f.srcIdx s ∧ FirstWithMint w.ctl.lsts r.dst.key f.dstIdx d ∧
      (SeenAs (k.metas ++ roMeta f.srcCalc :: r.srcMetas.drop 1 ++ roMeta f.dstCalc :: r.dstMetas.drop 1 ++
        roMeta r.pricing.program :: r.pricing.metas.drop 2) accs → SwapReady w p r s →
      ∃ a suf c, SwapAccs.load accs = .ok (a, suf) ∧
        verifySwap cfg w a suf r.srcMetas.length r.dstMetas.length f.srcIdx f.dstIdx = .ok c ∧
        (Callee.mk s.solValueCalculator r.srcMetas).Is c.src.program c.src.metas ∧
        (Callee.mk d.solValueCalculator r.dstMetas).Is c.dst.program c.dst.metas ∧
        r.pricing.Is c.pricing.program c.pricing.metas) := by
  simp only [resolveSwap, bind_ok, Prod.exists, poolReserves_ok, feeAccumulator_ok, pure_ok, Prod.mk.injEq] at h
  obtain ⟨i, s, hf, sr, hsr, j, d, hf', dr, hdr, fee, hfee, rfl, rfl⟩ := h
  have hs := ((C43_find _ _).1 i s).1 hf
  have hd := ((C43_find _ _).1 j d).1 hf'
  refine ⟨s, d, hs, hd, fun hacc hr => ?_⟩
  obtain ⟨sl, hsl⟩ := hr.srcMetas
  obtain ⟨dl, hdl⟩ := hr.dstMetas
  obtain ⟨pl, hpl⟩ := hr.priceMetas
  rw [List.append_assoc, List.append_assoc] at hacc
  obtain ⟨a, suf, hl, hk, hsuf⟩ := seen_swap hacc
  obtain ⟨x, y, rfl, hx, hy⟩ := hsuf.split
  obtain ⟨y, z, rfl, hy, hz⟩ := hy.split
  simp only [SwapKeys.metas, SwapAccs.list, SeenAs, List.forall₂_cons] at hk
  obtain ⟨e1, e2, e3, e4, e5, e6, e7, e8, e9, e10, e11, e12, -⟩ := hk
  have lx : x.length = r.srcMetas.length := tail_len (c := ⟨s.solValueCalculator, r.srcMetas⟩) hsl hx
  have ly : y.length = r.dstMetas.length := tail_len (c := ⟨d.solValueCalculator, r.dstMetas⟩) hdl hy
  obtain ⟨x0, x', rfl, ex, hx'⟩ := hx.cons_inv
  obtain ⟨y0, y', rfl, ey, hy'⟩ := hy.cons_inv
  obtain ⟨z0, z', rfl, ez, hz'⟩ := hz.cons_inv
  have k2 : a.srcLstMint.key = r.src.key := e2.key
  have k3 : a.dstLstMint.key = r.dst.key := e3.key
  have kx : x0.key = s.solValueCalculator := ex.key
  have ky : y0.key = d.solValueCalculator := ey.key
  have kz : z0.key = r.pricing.program := ez.key
  obtain ⟨ms, hms, hps⟩ := hr.srcMint
  obtain ⟨md, hmd, hpd⟩ := hr.dstMint
  refine ⟨a, _, ⟨⟨x0.key, r.src.key, x'⟩, ⟨y0.key, r.dst.key, y'⟩, ⟨z0.key, [r.src.key, r.dst.key], z'⟩⟩, hl, ?_,
    ⟨kx, ?_⟩, ⟨ky, ?_⟩, ⟨kz, ?_⟩⟩
  · rw [← List.append_assoc]
    simp only [verifySwap, swap_split lx ly, bind_ok, require_ok, exists_const, matchLst_ok, mintProgram_ok, poolReserves_ok, feeAccumulator_ok,
      checkKeys_ok, checkWritable_ok, checkSigner_ok, getPool_ok, verifyActive_ok, verifyInputEnabled_ok,
      verifyCalcCpi_ok, verifyPriceCpi_ok, List.forall_mem_cons, pure_ok]
    refine ⟨e10.key, s, ⟨hs.get, hs.mint_eq.trans k2.symm⟩, r.src.owner, ⟨ms, k2 ▸ hms, hps⟩, sr, hsr, d,
      ⟨hd.get, hd.mint_eq.trans k3.symm⟩, r.dst.owner, ⟨md, k3 ▸ hmd, hpd⟩, dr, hdr, fee, hfee,
      ⟨e6.key, e7.key, e8.key, e9.key, e10.key, e11.key, e12.key, by simp⟩,
      ⟨e4.writable rfl, e5.writable rfl, e6.writable rfl, e9.writable rfl, e10.writable rfl, e11.writable rfl,
        e12.writable rfl, by simp⟩, ⟨e1.signer rfl, by simp⟩, ?_, p, hr.isOpen.pool, ⟨hr.isOpen.notReb, hr.isOpen.notDis⟩,
      hr.inputEnabled, _, ⟨x0, x', s, rfl, rfl, hs.get, kx⟩, _, ⟨y0, y', d, rfl, rfl, hd.get, ky⟩, _,
      ⟨z0, z', rfl, rfl, kz.trans hr.pricing⟩, ?_⟩
    · rw [k2, k3]; exact hr.differ
    · rw [k2, k3]
  · rw [hsl] at hx' ⊢; exact .cons (.refl _) hx'
  · rw [hdl] at hy' ⊢; exact .cons (.refl _) hy'
  · rw [hpl] at hz' ⊢; exact .cons (.refl _) (.cons (.refl _) hz')

/-- C43, SwapExactIn by mints: the instruction passes every account and index check on chain; the two entries are those of
the two mints, and their calculators and the pool's pricing program are called with the intended accounts. -/
theorem C43_swap_exact_in {cfg : Cfg} {w : World} {p : PoolState} {r : SwapRequest} {minAmountOut amount : Nat}
    {ix : TopIx} {accs : List Acc} (hu : minAmountOut < 2 ^ 64 ∧ amount < 2 ^ 64)
    (h : swapExactInByMint cfg w.ctl.lsts r minAmountOut amount = .ok ix) (hacc : SeenAs ix.accs accs) :
    ∃ i j s d, FirstWithMint w.ctl.lsts r.src.key i s ∧ FirstWithMint w.ctl.lsts r.dst.key j d ∧
      decodeIx ix.data = .ok (.swapExactIn ⟨r.srcMetas.length, r.dstMetas.length, i, j, minAmountOut, amount⟩) ∧
      (SwapReady w p r s → ∃ a suf c, SwapAccs.load accs = .ok (a, suf) ∧
        verifySwap cfg w a suf r.srcMetas.length r.dstMetas.length i j = .ok c ∧
        (Callee.mk s.solValueCalculator r.srcMetas).Is c.src.program c.src.metas ∧
        (Callee.mk d.solValueCalculator r.dstMetas).Is c.dst.program c.dst.metas ∧
        r.pricing.Is c.pricing.program c.pricing.metas) := by
  simp only [swapExactInByMint, bind_ok, Prod.exists] at h
  obtain ⟨k, f, hr, hix⟩ := h
  simp only [swapExactInIx, bind_ok, Prod.exists, indexToU32_ok, extendSrcDst_ok, extendSwap_ok, pure_ok] at hix
  obtain ⟨i, ⟨hi, ei⟩, j, ⟨hj, ej⟩, _, _, _, ⟨h1, h2, rfl, rfl, rfl⟩, _, _, ⟨h3, h4, rfl, rfl⟩, rfl⟩ := hix
  subst ei ej
  obtain ⟨s, d, hs, hd, H⟩ := swap_verified (p := p) (accs := accs) hr
  refine ⟨_, _, s, d, hs, hd, ?_, H hacc⟩
  rw [overwrite_same (encode_length_swapIn _ _)]
  exact C38_roundtrip _ (show (Ix.swapExactIn _).Wf from
    ⟨Nat.lt_of_le_of_lt h1 (by decide), Nat.lt_of_le_of_lt h2 (by decide), hi, hj, hu.1, hu.2⟩)

/-- C43, SwapExactOut by mints. -/
theorem C43_swap_exact_out {cfg : Cfg} {w : World} {p : PoolState} {r : SwapRequest} {maxAmountIn amount : Nat}
    {ix : TopIx} {accs : List Acc} (hu : maxAmountIn < 2 ^ 64 ∧ amount < 2 ^ 64)
    (h : swapExactOutByMint cfg w.ctl.lsts r maxAmountIn amount = .ok ix) (hacc : SeenAs ix.accs accs) :
    ∃ i j s d, FirstWithMint w.ctl.lsts r.src.key i s ∧ FirstWithMint w.ctl.lsts r.dst.key j d ∧
      decodeIx ix.data = .ok (.swapExactOut ⟨r.srcMetas.length, r.dstMetas.length, i, j, maxAmountIn, amount⟩) ∧
      (SwapReady w p r s → ∃ a suf c, SwapAccs.load accs = .ok (a, suf) ∧
        verifySwap cfg w a suf r.srcMetas.length r.dstMetas.length i j = .ok c ∧
        (Callee.mk s.solValueCalculator r.srcMetas).Is c.src.program c.src.metas ∧
        (Callee.mk d.solValueCalculator r.dstMetas).Is c.dst.program c.dst.metas ∧
        r.pricing.Is c.pricing.program c.pricing.metas) := by
  simp only [swapExactOutByMint, bind_ok, Prod.exists] at h
  obtain ⟨k, f, hr, hix⟩ := h
  simp only [swapExactOutIx, bind_ok, Prod.exists, indexToU32_ok, extendSrcDst_ok, extendSwap_ok, pure_ok] at hix
  obtain ⟨i, ⟨hi, ei⟩, j, ⟨hj, ej⟩, _, _, _, ⟨h1, h2, rfl, rfl, rfl⟩, _, _, ⟨h3, h4, rfl, rfl⟩, rfl⟩ := hix
  subst ei ej
  obtain ⟨s, d, hs, hd, H⟩ := swap_verified (p := p) (accs := accs) hr
  refine ⟨_, _, s, d, hs, hd, ?_, H hacc⟩
  rw [overwrite_same (encode_length_swapOut _ _)]
  exact C38_roundtrip _ (show (Ix.swapExactOut _).Wf from
    ⟨Nat.lt_of_le_of_lt h1 (by decide), Nat.lt_of_le_of_lt h2 (by decide), hi, hj, hu.1, hu.2⟩)

/-- What a deposit or withdrawal built by mint is checked against on chain. -/
structure LiqReady (w : World) (p : PoolState) (r : LiqRequest) : Prop where
  isOpen : Open w p
  mint : r.mint.OnChain w.led
  calcMetas : ∃ l, r.calcMetas = roMeta r.mint.key :: l
  priceMetas : ∃ l, r.priceMetas = roMeta r.mint.key :: l

theorem liq_verified {cfg : Cfg} {w : World} {p : PoolState} {r : LiqRequest} {k : LiqKeys} {i : Nat} {cp pp : Pubkey}
    {accs : List Acc} {check : Bool}
    (h : resolveLiq cfg p w.ctl.lsts r.signer r.userLst r.userLp r.mint = .ok (k, i, cp, pp)) :
    ∃ s, FirstWithMint w.ctl.lsts r.mint.key i s ∧
      (SeenAs (k.metas ++ roMeta cp :: r.calcMetas.drop 1 ++ roMeta pp :: r.priceMetas.drop 1) accs → LiqReady w p r →
      (check = true → s.isInputDisabled = 0) →
      ∃ a suf c, LiqAccs.load accs = .ok (a, suf) ∧ verifyLiq cfg w a suf r.calcMetas.length i check = .ok c ∧
        (Callee.mk s.solValueCalculator r.calcMetas).Is c.lst.program c.lst.metas ∧
        (Callee.mk p.pricingProgram r.priceMetas).Is c.pricing.program c.pricing.metas) := by
  simp only [resolveLiq, bind_ok, Prod.exists, poolReserves_ok, feeAccumulator_ok, pure_ok, Prod.mk.injEq] at h
  obtain ⟨i, s, hf, sr, hsr, fee, hfee, rfl, e, rfl, rfl⟩ := h
  subst e
  have hs := ((C43_find _ _).1 i s).1 hf
  refine ⟨s, hs, fun hacc hr hin => ?_⟩
  obtain ⟨cl, hcl⟩ := hr.calcMetas
  obtain ⟨pl, hpl⟩ := hr.priceMetas
  rw [List.append_assoc] at hacc
  obtain ⟨a, suf, hl, hk, hsuf⟩ := seen_liq hacc
  obtain ⟨x, z, rfl, hx, hz⟩ := hsuf.split
  simp only [LiqKeys.metas, LiqAccs.list, SeenAs, List.forall₂_cons] at hk
  obtain ⟨e1, e2, e3, e4, e5, e6, e7, e8, e9, e10, e11, -⟩ := hk
  have lx : x.length = r.calcMetas.length := tail_len (c := ⟨s.solValueCalculator, r.calcMetas⟩) hcl hx
  obtain ⟨x0, x', rfl, ex, hx'⟩ := hx.cons_inv
  obtain ⟨z0, z', rfl, ez, hz'⟩ := hz.cons_inv
  have k2 : a.lstMint.key = r.mint.key := e2.key
  have kx : x0.key = s.solValueCalculator := ex.key
  have kz : z0.key = p.pricingProgram := ez.key
  obtain ⟨ms, hms, hps⟩ := hr.mint
  refine ⟨a, _, ⟨⟨x0.key, r.mint.key, x'⟩, ⟨z0.key, [r.mint.key], z'⟩⟩, hl, ?_, ⟨kx, ?_⟩, ⟨kz, ?_⟩⟩
  · simp only [verifyLiq, lp_split lx, bind_ok, require_ok, exists_const, matchLst_ok, mintProgram_ok, poolReserves_ok, feeAccumulator_ok,
      checkKeys_ok, checkWritable_ok, checkSigner_ok, getPool_ok, verifyActive_ok,
      verifyCalcCpi_ok, verifyPriceCpi_ok, List.forall_mem_cons, pure_ok]
    refine ⟨e9.key, e10.key, s, ⟨hs.get, hs.mint_eq.trans k2.symm⟩, r.mint.owner, ⟨ms, k2 ▸ hms, hps⟩, sr, hsr, fee, hfee,
      p, hr.isOpen.pool, ⟨e5.key, e6.key, e7.key, e8.key, e9.key, e10.key, e11.key, by simp⟩,
      ⟨e3.writable rfl, e4.writable rfl, e5.writable rfl, e6.writable rfl, e9.writable rfl, e10.writable rfl,
        e11.writable rfl, by simp⟩, ⟨e1.signer rfl, by simp⟩, ⟨hr.isOpen.notReb, hr.isOpen.notDis⟩,
      fun hc => by simp [hin hc], _, ⟨x0, x', s, rfl, rfl, hs.get, kx⟩, _,
      ⟨z0, z', rfl, rfl, kz⟩, ?_⟩
    rw [k2]
  · rw [hcl] at hx' ⊢; exact .cons (.refl _) hx'
  · rw [hpl] at hz' ⊢; exact .cons (.refl _) hz'

/-- C43, AddLiquidity by mint. -/
theorem C43_add_liquidity {cfg : Cfg} {w : World} {p : PoolState} {r : LiqRequest} {lstAmount minLpOut : Nat}
    {ix : TopIx} {accs : List Acc} (hu : lstAmount < 2 ^ 64 ∧ minLpOut < 2 ^ 64)
    (h : addLiquidityByMint cfg p w.ctl.lsts r lstAmount minLpOut = .ok ix) (hacc : SeenAs ix.accs accs) :
    ∃ i s, FirstWithMint w.ctl.lsts r.mint.key i s ∧
      decodeIx ix.data = .ok (.addLiquidity ⟨r.calcMetas.length, i, lstAmount, minLpOut⟩) ∧
      (LiqReady w p r → s.isInputDisabled = 0 → ∃ a suf c, LiqAccs.load accs = .ok (a, suf) ∧
        verifyLiq cfg w a suf r.calcMetas.length i true = .ok c ∧
        (Callee.mk s.solValueCalculator r.calcMetas).Is c.lst.program c.lst.metas ∧
        (Callee.mk p.pricingProgram r.priceMetas).Is c.pricing.program c.pricing.metas) := by
  simp only [addLiquidityByMint, bind_ok, Prod.exists] at h
  obtain ⟨k, f, _, _, hr, hix⟩ := h
  simp only [addLiquidityIx, bind_ok, Prod.exists, indexToU32_ok, extendOne_ok, pure_ok] at hix
  obtain ⟨i, ⟨hi, ei⟩, _, _, ⟨h1, rfl, rfl⟩, _, _, ⟨h2, rfl, rfl⟩, rfl⟩ := hix
  subst ei
  obtain ⟨s, hs, H⟩ := liq_verified (accs := accs) (check := true) hr
  refine ⟨_, s, hs, ?_, fun hready hin => H hacc hready fun _ => hin⟩
  rw [overwrite_same (encode_length_add _ _)]
  exact C38_roundtrip _ (show (Ix.addLiquidity _).Wf from ⟨Nat.lt_of_le_of_lt h1 (by decide), hi, hu.1, hu.2⟩)

/-- C43, RemoveLiquidity by mint. -/
theorem C43_remove_liquidity {cfg : Cfg} {w : World} {p : PoolState} {r : LiqRequest} {lpAmount minLstOut : Nat}
    {ix : TopIx} {accs : List Acc} (hu : lpAmount < 2 ^ 64 ∧ minLstOut < 2 ^ 64)
    (h : removeLiquidityByMint cfg p w.ctl.lsts r lpAmount minLstOut = .ok ix) (hacc : SeenAs ix.accs accs) :
    ∃ i s, FirstWithMint w.ctl.lsts r.mint.key i s ∧
      decodeIx ix.data = .ok (.removeLiquidity ⟨r.calcMetas.length, i, lpAmount, minLstOut⟩) ∧
      (LiqReady w p r → ∃ a suf c, LiqAccs.load accs = .ok (a, suf) ∧
        verifyLiq cfg w a suf r.calcMetas.length i false = .ok c ∧
        (Callee.mk s.solValueCalculator r.calcMetas).Is c.lst.program c.lst.metas ∧
        (Callee.mk p.pricingProgram r.priceMetas).Is c.pricing.program c.pricing.metas) := by
  simp only [removeLiquidityByMint, bind_ok, Prod.exists] at h
  obtain ⟨k, f, _, _, hr, hix⟩ := h
  simp only [removeLiquidityIx, bind_ok, Prod.exists, indexToU32_ok, extendOne_ok, pure_ok] at hix
  obtain ⟨i, ⟨hi, ei⟩, _, _, ⟨h1, rfl, rfl⟩, _, _, ⟨h2, rfl, rfl⟩, rfl⟩ := hix
  subst ei
  obtain ⟨s, hs, H⟩ := liq_verified (accs := accs) (check := false) hr
  refine ⟨_, s, hs, ?_, fun hready => H hacc hready (by simp)⟩
  rw [overwrite_same (encode_length_remove _ _)]
  exact C38_roundtrip _ (show (Ix.removeLiquidity _).Wf from ⟨Nat.lt_of_le_of_lt h1 (by decide), hi, hu.1, hu.2⟩)

/-- C43, StartRebalance by mints: given the starting-balance bounds and a succeeding EndRebalance for the destination mint,
the instruction passes every check on chain for the entries of the two mints. -/
theorem C43_start_rebalance {cfg : Cfg} {tx : TxInfo} {w : World} {p : PoolState} {withdrawTo : Pubkey} {src dst : MintAcc}
    {amts : StartAmts} {sl dl : List Acc} {ix : TopIx} {accs : List Acc}
    (hu : amts.amount < 2 ^ 64 ∧ amts.minStartingSrcLst < 2 ^ 64 ∧ amts.maxStartingDstLst < 2 ^ 64)
    (h : startRebalanceByMints cfg p w.ctl.lsts withdrawTo src dst amts (roMeta src.key :: sl) (roMeta dst.key :: dl) =
      .ok ix) (hacc : SeenAs ix.accs accs) :
    ∃ i j s d sr dr, FirstWithMint w.ctl.lsts src.key i s ∧ FirstWithMint w.ctl.lsts dst.key j d ∧
      cfg.ata cfg.poolState src.owner s.mint s.poolReservesBump = some sr ∧
      cfg.ata cfg.poolState dst.owner d.mint d.poolReservesBump = some dr ∧
      decodeIx ix.data = .ok (.startRebalance
        ⟨sl.length + 1, i, j, amts.amount, amts.minStartingSrcLst, amts.maxStartingDstLst⟩) ∧
      ∀ sa da, Open w p → src.OnChain w.led → dst.OnChain w.led → d.isInputDisabled = 0 →
        w.led.tok sr = some sa → amts.minStartingSrcLst ≤ sa.amount →
        w.led.tok dr = some da → da.amount ≤ amts.maxStartingDstLst →
        verifySucceedingEnd cfg tx dst.key = .ok () →
        ∃ a suf c, StartRebAccs.load accs = .ok (a, suf) ∧
          verifyStartRebalance cfg tx w a suf
            ⟨sl.length + 1, i, j, amts.amount, amts.minStartingSrcLst, amts.maxStartingDstLst⟩ = .ok c ∧
          (Callee.mk s.solValueCalculator (roMeta src.key :: sl)).Is c.src.program c.src.metas ∧
          (Callee.mk d.solValueCalculator (roMeta dst.key :: dl)).Is c.dst.program c.dst.metas := by
  simp only [startRebalanceByMints, resolveStart, bind_ok, Prod.exists, poolReserves_ok, pure_ok, Prod.mk.injEq] at h
  obtain ⟨k, f, ⟨i0, s, hf, sr, hsr, j0, d, hf', dr, hdr, rfl, rfl⟩, hix⟩ := h
  simp only [startRebalanceIx, bind_ok, Prod.exists, indexToU32_ok, extendSrcDst_ok, pure_ok] at hix
  obtain ⟨i, ⟨hi, ei⟩, j, ⟨hj, ej⟩, _, _, _, ⟨h1, h2, rfl, rfl, rfl⟩, rfl⟩ := hix
  subst ei ej
  have hs := ((C43_find _ _).1 _ s).1 hf
  have hd := ((C43_find _ _).1 _ d).1 hf'
  refine ⟨_, _, s, d, sr, dr, hs, hd, hsr, hdr, ?_, ?_⟩
  · rw [overwrite_same (encode_length_start _ _)]
    exact C38_roundtrip _ (show (Ix.startRebalance _).Wf from
      ⟨Nat.lt_of_le_of_lt h1 (by decide), hi, hj, hu.1, hu.2.1, hu.2.2⟩)
  · intro sa da ho hso hdo hin hsa hmin hda hmax hend
    rw [List.append_assoc] at hacc
    obtain ⟨a, suf, hl, hk, hsuf⟩ := seen_start hacc
    obtain ⟨x, y, rfl, hx, hy⟩ := hsuf.split
    simp only [StartKeys.metas, StartRebAccs.list, SeenAs, List.forall₂_cons] at hk
    obtain ⟨e1, e2, e3, e4, e5, e6, e7, e8, e9, e10, e11, e12, -⟩ := hk
    have lx : x.length = sl.length + 1 := by rw [hx.length]; simp
    obtain ⟨x0, x', rfl, ex, hx'⟩ := hx.cons_inv
    obtain ⟨y0, y', rfl, ey, hy'⟩ := hy.cons_inv
    have k5 : a.srcLstMint.key = src.key := e5.key.trans hs.mint_eq
    have k6 : a.dstLstMint.key = dst.key := e6.key.trans hd.mint_eq
    have k7 : a.srcPoolReserves.key = sr := e7.key
    have k8 : a.dstPoolReserves.key = dr := e8.key
    have kx : x0.key = s.solValueCalculator := ex.key
    have ky : y0.key = d.solValueCalculator := ey.key
    obtain ⟨ms, hms, hps⟩ := hso
    obtain ⟨md, hmd, hpd⟩ := hdo
    refine ⟨a, _, ⟨⟨x0.key, src.key, x'⟩, ⟨y0.key, dst.key, y'⟩⟩, hl, ?_, ⟨kx, .cons (.refl _) hx'⟩,
      ⟨ky, .cons (.refl _) hy'⟩⟩
    rw [verifyStartRebalance, srcDst_split lx]
    simp only [bind_ok, require_ok, exists_const, matchLst_ok, mintProgram_ok, poolReserves_ok,
      checkKeys_ok, checkWritable_ok, checkSigner_ok, getPool_ok, verifyActive_ok, verifyInputEnabled_ok, tokenBalance_ok,
      verifyCalcCpi_ok, List.forall_mem_cons, pure_ok]
    refine ⟨e3.key, e2.key, s, ⟨hs.get, hs.mint_eq.trans k5.symm⟩, src.owner, ⟨ms, k5 ▸ hms, hps⟩, sr, hsr, d,
      ⟨hd.get, hd.mint_eq.trans k6.symm⟩, dst.owner, ⟨md, k6 ▸ hmd, hpd⟩, dr, hdr, p, ho.pool,
      ⟨e1.key, e2.key, e3.key, e4.key, e5.key, e6.key, e7.key, e8.key, e10.key, e11.key, e12.key, by simp⟩,
      ⟨e2.writable rfl, e3.writable rfl, e4.writable rfl, e7.writable rfl, e8.writable rfl, e9.writable rfl, by simp⟩,
      ⟨e1.signer rfl, by simp⟩, _, ⟨sa, k7 ▸ hsa, rfl⟩, hmin, _, ⟨da, k8 ▸ hda, rfl⟩, hmax, ⟨ho.notReb, ho.notDis⟩, hin,
      _, ⟨_, ⟨x0, x', s, rfl, rfl, hs.get, kx⟩, _, ⟨y0, y', d, rfl, rfl, hd.get, ky⟩, rfl⟩, (), ?_, ?_⟩
    · rw [k6]; exact hend
    · rw [k5, k6]

/-! ### The client against the example deployment

Every by-mint builder, run on the list of a reachable state and executed in that state. `some ()` means: built, and the
program accepted it. -/

namespace Ex

def mA : MintAcc := ⟨21, 8⟩
def mB : MintAcc := ⟨22, 8⟩
/-- LST 21 for LST 22; the calculators and the pricing program each get one extra account. -/
def clientSwap : SwapRequest where
  signer := 40
  srcAcc := 41
  dstAcc := 42
  src := mA
  dst := mB
  srcMetas := [roMeta 21, roMeta 70]
  dstMetas := [roMeta 22, roMeta 71]
  pricing := ⟨7, [roMeta 21, roMeta 22, roMeta 72]⟩
def clientLiq : LiqRequest := ⟨40, 42, 43, mB, [roMeta 22, roMeta 71], [roMeta 22, roMeta 72]⟩

/-- Build with the client, then run. -/
def accepted (w : World) (b : R TopIx) : Option Unit :=
  (do
    let ix ← b
    let _ ← processInstruction cfg .ex env ⟨[ix, ⟨13, endA, Ix.endRebalance.encode⟩], 0⟩ w ix.program ix.accs ix.data
    pure ()).toOption

end Ex

example : Ex.accepted (Ex.st 5) (syncByMint Ex.cfg (Ex.st 5).ctl.lsts Ex.mB [roMeta 22, roMeta 70]) = some () ∧
    Ex.accepted (Ex.st 5) (swapExactInByMint Ex.cfg (Ex.st 5).ctl.lsts Ex.clientSwap 10 3000) = some () ∧
    Ex.accepted (Ex.st 5) (swapExactOutByMint Ex.cfg (Ex.st 5).ctl.lsts Ex.clientSwap 5000 2000) = some () := by
  decide +kernel

example : (do
      let p ← (Ex.st 5).ctl.pool
      Ex.accepted (Ex.st 5) (addLiquidityByMint Ex.cfg p (Ex.st 5).ctl.lsts Ex.clientLiq 1000 1)
      Ex.accepted (Ex.st 5) (removeLiquidityByMint Ex.cfg p (Ex.st 5).ctl.lsts Ex.clientLiq 1000 1)
      Ex.accepted (Ex.st 5) (lstInputByMint Ex.cfg p (Ex.st 5).ctl.lsts true 22)
      Ex.accepted (Ex.st 5) (lstInputByMint Ex.cfg p (Ex.st 5).ctl.lsts false 22)) = some () := by
  decide +kernel

example : (do
      let p ← (Ex.st 5).ctl.pool
      Ex.accepted (Ex.st 5) (setCalcByMint Ex.cfg p (Ex.st 5).ctl.lsts Ex.mB ⟨31, [roMeta 22, roMeta 70]⟩)
      Ex.accepted (Ex.st 5) (startRebalanceByMints Ex.cfg p (Ex.st 5).ctl.lsts 42 Ex.mB Ex.mA ⟨4000, 0, 1000000⟩
        [roMeta 22, roMeta 71] [roMeta 21, roMeta 70])) = some () := by
  decide +kernel

example : (do
      let p ← (Ex.st 3).ctl.pool
      Ex.accepted (Ex.st 3) (removeLstByMint Ex.cfg p (Ex.st 3).ctl.lsts 52 Ex.mB)
      Ex.accepted (Ex.st2 11) (removeAuthByPubkey Ex.cfg (Ex.st2 11).ctl.auths 52 51 51)) = some () := by
  decide +kernel

/-- A mint that is not listed is not found. -/
example : (syncByMint Ex.cfg (Ex.st 5).ctl.lsts ⟨23, 8⟩ [roMeta 23]).toOption = none := by decide +kernel

/-- The hypotheses of the swap theorem hold in the example. -/
example : ∃ p s, (Ex.st 5).ctl.lsts[0]? = some s ∧ SwapReady (Ex.st 5) p Ex.clientSwap s := by
  have h1 : (Ex.st 5).ctl.pool.isSome = true := by decide +kernel
  obtain ⟨p, hp⟩ := Option.isSome_iff_exists.1 h1
  have h2 : ((Ex.st 5).ctl.lsts[0]?).isSome = true := by decide +kernel
  obtain ⟨s, hs⟩ := Option.isSome_iff_exists.1 h2
  have e1 : (Ex.st 5).ctl.pool.map (fun p => (p.isRebalancing, p.isDisabled, p.pricingProgram)) = some (0, 0, 7) := by
    decide +kernel
  have e2 : (Ex.st 5).ctl.lsts[0]?.map (·.isInputDisabled) = some 0 := by decide +kernel
  have e3 : ((Ex.st 5).led.mints 21).map (·.program) = some 8 ∧ ((Ex.st 5).led.mints 22).map (·.program) = some 8 := by
    decide +kernel
  rw [hp] at e1; rw [hs] at e2
  simp only [Option.map_some, Option.some.injEq, Prod.mk.injEq] at e1 e2
  simp only [Option.map_eq_some_iff] at e3
  exact ⟨p, s, hs, ⟨hp, e1.1, e1.2.1⟩, e3.1, e3.2, by decide, e2, e1.2.2.symm, ⟨_, rfl⟩, ⟨_, rfl⟩, ⟨_, rfl⟩⟩

end S
