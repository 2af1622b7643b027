import Verif.ProgLamports
import Verif.Props.Lamports
import Verif.Props.Privileges
import Verif.Props.FlatFee
import Verif.Props.CalcPrograms
/-
C101: the flat-fee program and the calculators change only accounts passed as writable, take lamports only from accounts that signed for it, return the rent of a removed fee
account, and their accounts always hold their rent.
-/
set_option autoImplicit false
namespace S

section flat
variable {L : RatioLib} {fc : FlatCfg} {v : FlatView fc} {F F' : FlatFee} {accs : List Acc} {data : List UInt8} {x : Option Nat} {ix : FlatIx}
  {r : Rent} {lam lam' : Lam}

theorem flatInstruction_ok (hd : decodeFlatIx data = .ok ix) (h : flatInstruction L v F fc.programId accs data = .ok (F', x)) :
    flatProcess L v F accs ix = .ok (F', x) := by
  simp only [flatInstruction, bind_ok, require_ok, exists_const, true_and, hd, Except.ok.injEq, exists_eq_left'] at h
  exact h

/-- C101: an accepted instruction of the flat-fee program changes the program's state or a fee account only if that account was passed as writable. -/
theorem C101_flat_writable (h : flatInstruction L v F fc.programId accs data = .ok (F', x)) :
    (F'.state ≠ F.state → PassedWritable accs fc.stateId) ∧ ∀ k, F'.fees k ≠ F.fees k → PassedWritable accs k := by
  simp only [flatInstruction, bind_ok, require_ok, exists_const, true_and] at h
  obtain ⟨ix, _, h⟩ := h
  cases ix with
  | setLpWithdrawalFee b =>
    simp only [flatProcess, flatSetLpFee, bind_ok, pure_ok, Prod.mk.injEq] at h
    obtain ⟨F1, h, rfl, _⟩ := h
    split at h
    · rename_i m st rest
      simp only [bind_ok, readState_ok, checkKeys_ok, checkWritable_ok, checkSigner_ok, verifySignedFee_ok, verifyUnsignedFee_ok, verifyMint, okOr_ok, exists_const, pure_ok, List.forall_mem_cons] at h
      obtain ⟨s, ⟨hst, _⟩, _, hw, _, _, rfl⟩ := h
      exact ⟨fun _ => ⟨st, by simp, hst, hw.1⟩, fun k e => absurd rfl e⟩
    · cases h
  | setLstFee i o =>
    simp only [flatProcess, flatSetLstFee, bind_ok, pure_ok, Prod.mk.injEq] at h
    obtain ⟨F1, h, rfl, _⟩ := h
    split at h
    · rename_i m fa st rest
      simp only [bind_ok, readState_ok, checkKeys_ok, checkWritable_ok, checkSigner_ok, verifySignedFee_ok, verifyUnsignedFee_ok, verifyMint, okOr_ok, exists_const, List.forall_mem_cons] at h
      obtain ⟨s, _, _, hw, _, _, _, a, _, h⟩ := h
      split at h
      · simp only [pure_ok] at h
        subst h
        refine ⟨fun e => absurd rfl e, fun k e => ?_⟩
        by_cases hk : k = fa.key
        · exact ⟨fa, by simp, hk.symm, hw.1⟩
        · exact absurd (upd_ne _ _ hk) e
      · simp only [bind_ok, require_ok, exists_const, pure_ok] at h
        obtain ⟨_, rfl⟩ := h
        exact ⟨fun e => absurd rfl e, fun k e => absurd rfl e⟩
    · cases h
  | removeLst =>
    simp only [flatProcess, flatRemoveLst, bind_ok, pure_ok, Prod.mk.injEq] at h
    obtain ⟨F1, h, rfl, _⟩ := h
    split at h
    · rename_i m rf fa mint st rest
      simp only [bind_ok, readState_ok, checkKeys_ok, checkWritable_ok, checkSigner_ok, verifySignedFee_ok, verifyUnsignedFee_ok, verifyMint, okOr_ok, exists_const, pure_ok, List.forall_mem_cons] at h
      obtain ⟨s, _, _, hw, _, rfl⟩ := h
      refine ⟨fun e => absurd rfl e, fun k e => ?_⟩
      by_cases hk : k = fa.key
      · exact ⟨fa, by simp, hk.symm, hw.2.1⟩
      · exact absurd (upd_ne _ _ hk) e
    · cases h
  | addLst i o =>
    simp only [flatProcess, flatAddLst, bind_ok, pure_ok, Prod.mk.injEq] at h
    obtain ⟨F1, h, rfl, _⟩ := h
    split at h
    · rename_i m py fa mint st sys rest
      simp only [bind_ok, readState_ok, checkKeys_ok, checkWritable_ok, checkSigner_ok, verifySignedFee_ok, verifyUnsignedFee_ok, verifyMint, okOr_ok, require_ok, exists_const, pure_ok, List.forall_mem_cons] at h
      obtain ⟨s, _, _, hw, _, _, _, _, _, _, rfl⟩ := h
      refine ⟨fun e => absurd rfl e, fun k e => ?_⟩
      by_cases hk : k = fa.key
      · exact ⟨fa, by simp, hk.symm, hw.2.1⟩
      · exact absurd (upd_ne _ _ hk) e
    · cases h
  | setManager =>
    simp only [flatProcess, flatSetManager, bind_ok, pure_ok, Prod.mk.injEq] at h
    obtain ⟨F1, h, rfl, _⟩ := h
    split at h
    · rename_i m n st rest
      simp only [bind_ok, readState_ok, checkKeys_ok, checkWritable_ok, checkSigner_ok, verifySignedFee_ok, verifyUnsignedFee_ok, verifyMint, okOr_ok, exists_const, pure_ok, List.forall_mem_cons] at h
      obtain ⟨s, ⟨hst, _⟩, _, hw, _, rfl⟩ := h
      exact ⟨fun _ => ⟨st, by simp, hst, hw.1⟩, fun k e => absurd rfl e⟩
    · cases h
  | «initialize» =>
    simp only [flatProcess, flatInitialize, bind_ok, pure_ok, Prod.mk.injEq] at h
    obtain ⟨F1, h, rfl, _⟩ := h
    split at h
    · rename_i py st sys rest
      simp only [bind_ok, checkKeys_ok, checkWritable_ok, checkSigner_ok, verifySignedFee_ok, verifyUnsignedFee_ok, verifyMint, okOr_ok, require_ok, exists_const, pure_ok, List.forall_mem_cons] at h
      obtain ⟨hk, hw, _, _, rfl⟩ := h
      exact ⟨fun _ => ⟨st, by simp, hk.1, hw.2.1⟩, fun k e => absurd rfl e⟩
    · cases h
  | _ =>
    simp only [flatProcess, bind_ok, pure_ok, Prod.mk.injEq] at h
    first
      | (obtain ⟨_, _, rfl, _⟩ := h; exact ⟨fun e => absurd rfl e, fun k e => absurd rfl e⟩)
      | (obtain ⟨rfl, _⟩ := h; exact ⟨fun e => absurd rfl e, fun k e => absurd rfl e⟩)

/-- What an accepted AddLst says about its accounts. -/
theorem flatAddLst_parties {i o : Int} (h : flatProcess L v F accs (.addLst i o) = .ok (F', x)) :
    ∃ mgr payer feeAcc mint rest, accs = mgr :: payer :: feeAcc :: mint :: rest ∧ payer.signer = true ∧ payer.writable = true ∧ feeAcc.writable = true ∧
      feeAcc.key = (fc.findFee mint.key).1 ∧ F.fees feeAcc.key = none ∧ F'.state = F.state ∧ F'.fees = upd F.fees feeAcc.key (F'.fees feeAcc.key) := by
  simp only [flatProcess, flatAddLst, bind_ok, pure_ok, Prod.mk.injEq] at h
  obtain ⟨F1, h, rfl, _⟩ := h
  split at h
  · rename_i m py fa mint st sys rest
    simp only [bind_ok, readState_ok, checkKeys_ok, checkWritable_ok, checkSigner_ok, verifySignedFee_ok, verifyUnsignedFee_ok, verifyMint, okOr_ok, require_ok, exists_const, pure_ok, List.forall_mem_cons] at h
    obtain ⟨s, _, hk, hw, hs, _, _, _, hn, rfl⟩ := h
    exact ⟨m, py, fa, mint, _, rfl, hs.2.1, hw.1, hw.2.1, hk.2.1, hn, rfl, by simp⟩
  · cases h

theorem flatRemoveLst_parties (h : flatProcess L v F accs .removeLst = .ok (F', x)) :
    ∃ mgr refund feeAcc mint rest, accs = mgr :: refund :: feeAcc :: mint :: rest ∧ refund.writable = true ∧ feeAcc.writable = true ∧
      feeAcc.key = (fc.findFee mint.key).1 ∧ F'.state = F.state ∧ F'.fees = upd F.fees feeAcc.key none := by
  simp only [flatProcess, flatRemoveLst, bind_ok, pure_ok, Prod.mk.injEq] at h
  obtain ⟨F1, h, rfl, _⟩ := h
  split at h
  · rename_i m rf fa mint st rest
    simp only [bind_ok, readState_ok, checkKeys_ok, checkWritable_ok, checkSigner_ok, verifySignedFee_ok, verifyUnsignedFee_ok, verifyMint, okOr_ok, exists_const, pure_ok, List.forall_mem_cons] at h
    obtain ⟨s, _, hk, hw, _, rfl⟩ := h
    exact ⟨m, rf, fa, mint, _, rfl, hw.1, hw.2.1, hk.2.1, rfl, rfl⟩
  · cases h

theorem flatInitialize_parties (h : flatProcess L v F accs .initialize = .ok (F', x)) :
    ∃ payer state rest, accs = payer :: state :: rest ∧ payer.signer = true ∧ payer.writable = true ∧ state.writable = true ∧ state.key = fc.stateId ∧
      F.state = none ∧ F'.fees = F.fees := by
  simp only [flatProcess, flatInitialize, bind_ok, pure_ok, Prod.mk.injEq] at h
  obtain ⟨F1, h, rfl, _⟩ := h
  split at h
  · rename_i py st sys rest
    simp only [bind_ok, checkKeys_ok, checkWritable_ok, checkSigner_ok, verifySignedFee_ok, verifyUnsignedFee_ok, verifyMint, okOr_ok, require_ok, exists_const, pure_ok, List.forall_mem_cons] at h
    obtain ⟨hk, hw, hs, hn, rfl⟩ := h
    exact ⟨py, st, _, rfl, hs.1, hw.1, hw.2.1, hk.1, hn, rfl⟩
  · cases h

/-- C101: AddLst brings the mint's fee account up to the rent of its 6 bytes, out of the payer's account, who signed; nothing else. -/
theorem C101_flat_addLst {i o : Int} (hd : decodeFlatIx data = .ok (.addLst i o)) (h : flatInstruction L v F fc.programId accs data = .ok (F', x)) :
    ∃ payer mint, accs[1]? = some payer ∧ accs[3]? = some mint ∧ payer.signer = true ∧
      (payer.key ≠ (fc.findFee mint.key).1 → (flatLam r F accs lam (.addLst i o) = .ok lam' ↔ Raised lam lam' payer.key [((fc.findFee mint.key).1, r.min 6)])) := by
  obtain ⟨m, py, fa, mint, rest, rfl, hs, _, _, hk, _⟩ := flatAddLst_parties (flatInstruction_ok hd h)
  refine ⟨py, mint, rfl, rfl, hs, fun hne => ?_⟩
  show topUp lam py.key fa.key (r.min FEE_ACCOUNT_SIZE) = .ok lam' ↔ _
  rw [hk]
  exact topUp_iff hne

/-- C101: RemoveLst hands everything the mint's fee account holds to the refund account; nothing else. (An address that is not a fee account of the program cannot be emptied.) -/
theorem C101_flat_removeLst (hd : decodeFlatIx data = .ok .removeLst) (h : flatInstruction L v F fc.programId accs data = .ok (F', x)) :
    ∃ refund mint, accs[1]? = some refund ∧ accs[3]? = some mint ∧ F'.fees (fc.findFee mint.key).1 = none ∧
      (refund.key ≠ (fc.findFee mint.key).1 → (flatLam r F accs lam .removeLst = .ok lam' ↔
        (F.fees (fc.findFee mint.key).1 ≠ none ∨ lam (fc.findFee mint.key).1 = 0) ∧ Refunded lam lam' refund.key [((fc.findFee mint.key).1, 0)])) := by
  obtain ⟨m, rf, fa, mint, rest, rfl, _, _, hk, _, hf⟩ := flatRemoveLst_parties (flatInstruction_ok hd h)
  refine ⟨rf, mint, rfl, rfl, by rw [hf, hk, upd_same], fun hne => ?_⟩
  simp only [flatLam, bind_ok, require_ok, exists_const, closeLam, hk]
  rw [← pay_refunded hne.symm, Nat.sub_zero]

/-- C101: Initialize brings the program's state up to the rent of its 34 bytes, out of the payer's account, who signed; nothing else. -/
theorem C101_flat_initialize (hd : decodeFlatIx data = .ok .initialize) (h : flatInstruction L v F fc.programId accs data = .ok (F', x)) :
    ∃ payer, accs[0]? = some payer ∧ payer.signer = true ∧
      (payer.key ≠ fc.stateId → (flatLam r F accs lam .initialize = .ok lam' ↔ Raised lam lam' payer.key [(fc.stateId, r.min 34)])) := by
  obtain ⟨py, st, rest, rfl, hs, _, _, hk, _⟩ := flatInitialize_parties (flatInstruction_ok hd h)
  refine ⟨py, rfl, hs, fun hne => ?_⟩
  show topUp lam py.key st.key (r.min FLAT_STATE_SIZE) = .ok lam' ↔ _
  rw [hk]
  exact topUp_iff hne

/-- C101: the other instructions of the flat-fee program move no lamports. -/
theorem C101_flat_others (h : ix ≠ .initialize ∧ ix ≠ .removeLst ∧ ∀ i o, ix ≠ .addLst i o) : flatLam r F accs lam ix = .ok lam := by
  obtain ⟨h1, h2, h3⟩ := h
  cases ix <;> first | rfl | exact absurd rfl h1 | exact absurd rfl h2 | exact absurd rfl (h3 _ _)

/-- Lamports only leave an account that signed, or the fee account being closed. -/
theorem flat_takes (hp : flatProcess L v F accs ix = .ok (F', x)) (hm : flatLam r F accs lam ix = .ok lam') {k : Pubkey} (hk : lam' k < lam k) :
    (∃ a ∈ accs, a.key = k ∧ a.signer = true) ∨ (ix = .removeLst ∧ F.fees k ≠ none ∧ F'.fees k = none ∧ ∃ m, k = (fc.findFee m).1) := by
  cases ix with
  | «initialize» =>
    obtain ⟨py, st, rest, rfl, hs, _⟩ := flatInitialize_parties hp
    refine .inl ⟨py, by simp, ?_, hs⟩
    by_contra hne
    have := topUp_others (show topUp lam py.key st.key _ = .ok lam' from hm) (k := k) (Ne.symm hne)
    omega
  | addLst i o =>
    obtain ⟨m, py, fa, mint, rest, rfl, hs, _⟩ := flatAddLst_parties hp
    refine .inl ⟨py, by simp, ?_, hs⟩
    by_contra hne
    have := topUp_others (show topUp lam py.key fa.key _ = .ok lam' from hm) (k := k) (Ne.symm hne)
    omega
  | removeLst =>
    obtain ⟨m, rf, fa, mint, rest, rfl, _, _, hkey, _, hf⟩ := flatRemoveLst_parties hp
    simp only [flatLam, bind_ok, require_ok, exists_const, closeLam] at hm
    have e : k = fa.key := by
      by_contra hne
      have := pay_others hm.2 hne
      omega
    subst e
    refine .inr ⟨rfl, ?_, by rw [hf, upd_same], mint.key, hkey⟩
    rcases hm.1 with h | h
    · exact h
    · omega
  | _ =>
    rw [C101_flat_others (by simp)] at hm
    injection hm with hm
    subst hm
    omega

/-- C101: an accepted instruction of the flat-fee program takes lamports only from an account that signed it, or from the fee account it removes. -/
theorem C101_flat_takes (hd : decodeFlatIx data = .ok ix) (h : flatInstruction L v F fc.programId accs data = .ok (F', x))
    (hm : flatLam r F accs lam ix = .ok lam') {k : Pubkey} (hk : lam' k < lam k) :
    SignedBy accs k ∨ (ix = .removeLst ∧ F.fees k ≠ none ∧ F'.fees k = none) := by
  rcases flat_takes (flatInstruction_ok hd h) hm hk with h | ⟨h1, h2, h3, _⟩
  · obtain ⟨a, ha, e, hs⟩ := h
    exact .inl ⟨a, ha, hs, e⟩
  · exact .inr ⟨h1, h2, h3⟩

/-- C101: it creates and destroys no lamports. -/
theorem C101_flat_conserves (hm : flatLam r F accs lam ix = .ok lam') : Conserves (accs.map Acc.key).toFinset lam lam' := by
  have hF : ∀ {a : Acc}, a ∈ accs → a.key ∈ (accs.map Acc.key).toFinset := fun ha => List.mem_toFinset.2 (List.mem_map_of_mem ha)
  cases ix with
  | «initialize» =>
    simp only [flatLam] at hm
    split at hm
    · exact topUp_conserves (hF (by simp)) (hF (by simp)) hm
    · cases hm
  | addLst i o =>
    simp only [flatLam] at hm
    split at hm
    · exact topUp_conserves (hF (by simp)) (hF (by simp)) hm
    · cases hm
  | removeLst =>
    simp only [flatLam] at hm
    split at hm
    · simp only [bind_ok, require_ok, exists_const] at hm
      exact pay_conserves (hF (by simp)) (hF (by simp)) hm.2
    · cases hm
  | _ =>
    rw [C101_flat_others (by simp)] at hm
    injection hm with hm
    subst hm
    exact .refl _ _

/-- The flat-fee program's accounts hold their rent. -/
def FlatExempt (fc : FlatCfg) (r : Rent) (F : FlatFee) (lam : Lam) : Prop :=
  (F.state ≠ none → r.min 34 ≤ lam fc.stateId) ∧ ∀ k, F.fees k ≠ none → r.min 6 ≤ lam k

/-- Only Initialize creates the state, and only AddLst creates fee accounts. -/
theorem flat_creates (hp : flatProcess L v F accs ix = .ok (F', x)) :
    (F.state = none → F'.state ≠ none → ix = .initialize) ∧ ∀ k, F.fees k = none → F'.fees k ≠ none → ∃ i o, ix = .addLst i o := by
  rcases flatProcess_change hp with e | e
  · subst e
    exact ⟨fun h h' => absurd h h', fun k h h' => absurd h h'⟩
  · cases e with
    | «initialize» h0 h' => subst h'; exact ⟨fun _ _ => rfl, fun k h h' => absurd h h'⟩
    | setManager s new hst hm hn h' => subst h'; exact ⟨fun h _ => (by rw [hst] at h; cases h), fun k h h' => absurd h h'⟩
    | setLpWithdrawalFee s b hst hm hb h' => subst h'; exact ⟨fun h _ => (by rw [hst] at h; cases h), fun k h h' => absurd h h'⟩
    | setLstFee s f fa i o hst hm hi ho ha hf h' =>
      subst h'
      refine ⟨fun h h' => absurd h h', fun k h h' => ?_⟩
      by_cases hkey : k = fa.key
      · subst hkey; rw [hf] at h; cases h
      · exact absurd ((upd_ne _ _ hkey).trans h) h'
    | addLst s mint i o hst hm hi ho ha hf h' => exact ⟨fun h h1 => (by rw [hst] at h; cases h), fun k _ _ => ⟨i, o, rfl⟩⟩
    | removeLst s mint hst hm ha h' =>
      subst h'
      refine ⟨fun h h' => absurd h h', fun k h h' => ?_⟩
      by_cases hkey : k = (fc.findFee mint.key).1
      · subst hkey; exact absurd (upd_same _ _ _) h'
      · exact absurd ((upd_ne _ _ hkey).trans h) h'

theorem FlatExempt.step (hap : ∀ m, (fc.findFee m).1 ≠ fc.stateId) (ok : F.Ok fc) (he : FlatExempt fc r F lam)
    (hs : ∀ a ∈ accs, a.signer = true → a.key ≠ fc.stateId ∧ ∀ m, a.key ≠ (fc.findFee m).1)
    (hp : flatProcess L v F accs ix = .ok (F', x)) (hm : flatLam r F accs lam ix = .ok lam') : FlatExempt fc r F' lam' := by
  have keepState : lam fc.stateId ≤ lam' fc.stateId := by
    by_contra hlt
    rcases flat_takes hp hm (k := fc.stateId) (by omega) with ⟨a, ha, e, hsig⟩ | ⟨_, _, _, m, e⟩
    · exact (hs a ha hsig).1 e
    · exact hap m e.symm
  have keepFee : ∀ k, F.fees k ≠ none → F'.fees k ≠ none → lam k ≤ lam' k := by
    intro k hk hk'
    by_contra hlt
    rcases flat_takes hp hm (k := k) (by omega) with ⟨a, ha, e, hsig⟩ | ⟨_, _, h3, _⟩
    · obtain ⟨f, hf⟩ := Option.ne_none_iff_exists'.1 hk
      obtain ⟨m, hm'⟩ := ok.addr k f hf
      exact (hs a ha hsig).2 m (by rw [hm']; exact e)
    · exact hk' h3
  refine ⟨fun h => ?_, fun k h => ?_⟩
  · by_cases h0 : F.state = none
    · obtain rfl := (flat_creates hp).1 h0 h
      obtain ⟨py, st, rest, rfl, hsig, _, _, hk, _⟩ := flatInitialize_parties hp
      have hne : py.key ≠ fc.stateId := (hs py (by simp) hsig).1
      have hm' : topUp lam py.key st.key (r.min 34) = .ok lam' := hm
      rw [hk] at hm'
      have := ((topUp_iff hne).1 hm').raised (fc.stateId, r.min 34) (by simp)
      simp only at this
      omega
    · exact (he.1 h0).trans keepState
  · by_cases h0 : F.fees k = none
    · obtain ⟨i, o, rfl⟩ := (flat_creates hp).2 k h0 h
      obtain ⟨m, py, fa, mint, rest, rfl, hsig, _, _, hk, _, _, hf⟩ := flatAddLst_parties hp
      have hkey : k = fa.key := by
        by_contra hne
        rw [hf, upd_ne _ _ hne] at h
        exact h h0
      subst hkey
      have hne : py.key ≠ fa.key := by rw [hk]; exact (hs py (by simp) hsig).2 _
      have hm' : topUp lam py.key fa.key (r.min 6) = .ok lam' := hm
      have := ((topUp_iff hne).1 hm').raised (fa.key, r.min 6) (by simp)
      simp only at this
      omega
    · exact (he.2 k h0).trans (keepFee k h0 h)

/-- C101: whatever happened since deployment, the flat-fee program's state and its fee accounts hold at least the rent of their 34 and 6 bytes, so the runtime never takes them away. -/
theorem C101_flat_exempt {cs : List (FlatCall fc)} (hap : ∀ m, (fc.findFee m).1 ≠ fc.stateId) (h : FlatLamRun L r FlatFee.empty lam cs lam') :
    FlatExempt fc r (flatHistory L cs) lam' := by
  have gen : ∀ {F : FlatFee} {lam lam' : Lam} {cs : List (FlatCall fc)}, FlatLamRun L r F lam cs lam' → F.Ok fc → FlatExempt fc r F lam →
      FlatExempt fc r (cs.foldl (FlatCall.apply L) F) lam' := by
    intro F lam lam' cs h
    induction h with
    | nil h1 h2 => exact fun _ he => ⟨fun e => (he.1 e).trans (h1 e), fun k e => (he.2 k e).trans (h2 k e)⟩
    | @cons F F' lam lam1 lam2 lam' c cs ix x h1 h2 hs hd hr hm _ ih =>
      intro ok he
      have hp := flatInstruction_ok hd hr
      have ok' : F'.Ok fc := by
        rcases flatProcess_change hp with e | e
        · exact e ▸ ok
        · exact ok.change e
      have he1 : FlatExempt fc r F lam1 := ⟨fun e => (he.1 e).trans (h1 e), fun k e => (he.2 k e).trans (h2 k e)⟩
      have : FlatCall.apply L F c = F' := by simp only [FlatCall.apply, hr]
      rw [List.foldl_cons, this]
      exact ih ok' (he1.step hap ok hs hp hm)
  exact gen h (C26_bounds (L := L) []) ⟨fun e => absurd rfl e, fun k e => absurd rfl e⟩
end flat

section calculators
variable {L : RatioLib} {pc : PoolCfg} {ch : OnChain} {st st' : Option CalcState} {accs : List Acc} {data : List UInt8} {x : Option Range} {ix : CalcIx}
  {r : Rent} {lam lam' : Lam}

theorem calcInstruction_ok (hd : decodeCalcIx data = .ok ix) (h : calcInstruction L pc ch st pc.programId accs data = .ok (st', x)) :
    calcProcess L pc ch st accs ix = .ok (st', x) := by
  simp only [calcInstruction, bind_ok, require_ok, exists_const, true_and, hd, Except.ok.injEq, exists_eq_left'] at h
  exact h

/-- What an accepted Init says about its accounts. -/
theorem calcInit_parties (h : calcProcess L pc ch st accs .init = .ok (st', x)) :
    ∃ payer state rest, accs = payer :: state :: rest ∧ payer.signer = true ∧ payer.writable = true ∧ state.writable = true ∧ state.key = pc.stateId := by
  simp only [calcProcess, calcInit, bind_ok, pure_ok, Prod.mk.injEq] at h
  obtain ⟨s, h, rfl, _⟩ := h
  split at h
  · rename_i py st sys rest
    simp only [bind_ok, checkKeys_ok, checkWritable_ok, checkSigner_ok, require_ok, exists_const, pure_ok, List.forall_mem_cons] at h
    obtain ⟨hk, hw, hs, _, rfl⟩ := h
    exact ⟨py, st, _, rfl, hs.1, hw.1, hw.2.1, hk.1⟩
  · cases h

/-- C101: an accepted instruction of a calculator changes the calculator's state only if that account was passed as writable. -/
theorem C101_calc_writable (h : calcInstruction L pc ch st pc.programId accs data = .ok (st', x)) (hne : st' ≠ st) : PassedWritable accs pc.stateId := by
  simp only [calcInstruction, bind_ok, require_ok, exists_const, true_and] at h
  obtain ⟨ix, _, h⟩ := h
  cases ix with
  | lstToSol n =>
    simp only [calcProcess, bind_ok, pure_ok, Prod.mk.injEq] at h
    obtain ⟨_, _, _, _, rfl, _⟩ := h; exact absurd rfl hne
  | solToLst n =>
    simp only [calcProcess, bind_ok, pure_ok, Prod.mk.injEq] at h
    obtain ⟨_, _, _, _, rfl, _⟩ := h; exact absurd rfl hne
  | updateLastUpgradeSlot =>
    simp only [calcProcess, calcUpdateSlot, bind_ok, pure_ok, Prod.mk.injEq] at h
    obtain ⟨s', h, rfl, _⟩ := h
    split at h
    · rename_i manager state prog progData l
      simp only [bind_ok, require_ok, exists_const, okOr_ok, readProgramdataAddr_ok, checkKeys_ok, checkWritable_ok, checkSigner_ok, List.forall_mem_cons,
        Prod.exists, pure_ok] at h
      obtain ⟨hk, _, s, rfl, pd, _, _, hw, _⟩ := h
      exact ⟨state, by simp, hk, hw.1⟩
    · cases h
  | setManager =>
    simp only [calcProcess, calcSetManager, bind_ok, pure_ok, Prod.mk.injEq] at h
    obtain ⟨s', h, rfl, _⟩ := h
    split at h
    · rename_i manager new state l
      simp only [bind_ok, require_ok, exists_const, okOr_ok, checkKeys_ok, checkWritable_ok, checkSigner_ok, List.forall_mem_cons, pure_ok] at h
      obtain ⟨hk, s, rfl, _, hw, _⟩ := h
      exact ⟨state, by simp, hk, hw.1⟩
    · cases h
  | init =>
    obtain ⟨py, state, rest, rfl, _, _, hw, hk⟩ := calcInit_parties h
    exact ⟨state, by simp, hk, hw⟩

/-- C101: Init brings the calculator's state up to the rent of its 40 bytes, out of the payer's account, who signed; nothing else. -/
theorem C101_calc_init (hd : decodeCalcIx data = .ok .init) (h : calcInstruction L pc ch st pc.programId accs data = .ok (st', x)) :
    ∃ payer, accs[0]? = some payer ∧ payer.signer = true ∧
      (payer.key ≠ pc.stateId → (calcLam r accs lam .init = .ok lam' ↔ Raised lam lam' payer.key [(pc.stateId, r.min 40)])) := by
  obtain ⟨py, state, rest, rfl, hs, _, _, hk⟩ := calcInit_parties (calcInstruction_ok hd h)
  refine ⟨py, rfl, hs, fun hne => ?_⟩
  show topUp lam py.key state.key (r.min CALCULATOR_STATE_SIZE) = .ok lam' ↔ _
  rw [hk]
  exact topUp_iff hne

/-- C101: the other instructions of a calculator move no lamports. -/
theorem C101_calc_others (h : ix ≠ .init) : calcLam r accs lam ix = .ok lam := by
  cases ix <;> first | rfl | exact absurd rfl h

theorem calc_takes (hp : calcProcess L pc ch st accs ix = .ok (st', x)) (hm : calcLam r accs lam ix = .ok lam') {k : Pubkey} (hk : lam' k < lam k) :
    SignedBy accs k := by
  by_cases hi : ix = .init
  · subst hi
    obtain ⟨py, state, rest, rfl, hs, _⟩ := calcInit_parties hp
    refine ⟨py, by simp, hs, ?_⟩
    by_contra hne
    have := topUp_others (show topUp lam py.key state.key _ = .ok lam' from hm) (k := k) (Ne.symm hne)
    omega
  · rw [C101_calc_others hi] at hm
    injection hm with hm
    subst hm
    omega

/-- C101: an accepted instruction of a calculator takes lamports only from an account that signed it. -/
theorem C101_calc_takes (hd : decodeCalcIx data = .ok ix) (h : calcInstruction L pc ch st pc.programId accs data = .ok (st', x))
    (hm : calcLam r accs lam ix = .ok lam') {k : Pubkey} (hk : lam' k < lam k) : SignedBy accs k :=
  calc_takes (calcInstruction_ok hd h) hm hk

/-- C101: it creates and destroys no lamports. -/
theorem C101_calc_conserves (hm : calcLam r accs lam ix = .ok lam') : Conserves (accs.map Acc.key).toFinset lam lam' := by
  have hF : ∀ {a : Acc}, a ∈ accs → a.key ∈ (accs.map Acc.key).toFinset := fun ha => List.mem_toFinset.2 (List.mem_map_of_mem ha)
  by_cases hi : ix = .init
  · subst hi
    simp only [calcLam] at hm
    split at hm
    · exact topUp_conserves (hF (by simp)) (hF (by simp)) hm
    · cases hm
  · rw [C101_calc_others hi] at hm
    injection hm with hm
    subst hm
    exact .refl _ _

/-- C101: whatever happened since deployment, a calculator's state holds at least the rent of its 40 bytes. -/
theorem C101_calc_exempt {cs : List CalcCall} (h : CalcLamRun L r pc none lam cs lam') : calcHistory L pc cs ≠ none → r.min 40 ≤ lam' pc.stateId := by
  have gen : ∀ {st : Option CalcState} {lam lam' : Lam} {cs : List CalcCall}, CalcLamRun L r pc st lam cs lam' → (st ≠ none → r.min 40 ≤ lam pc.stateId) →
      cs.foldl (CalcCall.apply L pc) st ≠ none → r.min 40 ≤ lam' pc.stateId := by
    intro st lam lam' cs h
    induction h with
    | nil h1 => exact fun he e => (he e).trans (h1 e)
    | @cons st st' lam lam1 lam2 lam' c cs ix x h1 hs hd hr hm _ ih =>
      intro he
      have hp := calcInstruction_ok hd hr
      have : CalcCall.apply L pc st c = st' := by simp only [CalcCall.apply, hr]
      rw [List.foldl_cons, this]
      refine ih fun e => ?_
      have keep : lam1 pc.stateId ≤ lam2 pc.stateId := by
        by_contra hlt
        obtain ⟨a, ha, hsig, e⟩ := calc_takes hp hm (k := pc.stateId) (by omega)
        exact hs a ha hsig e
      by_cases h0 : st = none
      · have hix : ix = .init := by
          rcases C27_changes hr with e1 | ⟨ix', rest, hdat, hc⟩
          · exact absurd (e1.trans h0) e
          · subst h0
            cases hc
            obtain ⟨_, rest', hdat'⟩ := decodeCalcIx_iff.1 hd
            have := (decodeCalcIx_iff (ix := .init)).2 ⟨trivial, rest, hdat⟩
            rw [hd] at this
            injection this
        subst hix
        obtain ⟨py, state, rest, hacc, hsig, _, _, hk⟩ := calcInit_parties hp
        have hne : py.key ≠ pc.stateId := hs py (by simp [hacc]) hsig
        rw [hacc] at hm
        have hm' : topUp lam1 py.key state.key (r.min 40) = .ok lam2 := hm
        rw [hk] at hm'
        have := ((topUp_iff hne).1 hm').raised (pc.stateId, r.min 40) (by simp)
        simp only at this
        omega
      · exact ((he h0).trans (h1 h0)).trans keep
  exact gen h (fun e => absurd rfl e)
end calculators

namespace Ex

/-- The lamports after a list of accepted instructions of the flat-fee program with nothing in between, and the program's accounts. -/
def flatLams : FlatFee → Lam → List (FlatCall fc) → R (FlatFee × Lam)
  | F, lam, [] => .ok (F, lam)
  | F, lam, c :: cs => do
    let ix ← decodeFlatIx c.data
    let (F', _) ← flatInstruction .ex c.view F fc.programId c.accs c.data
    let lam' ← flatLam rent F c.accs lam ix
    flatLams F' lam' cs

theorem flatLams_run {F F' : FlatFee} {lam lam' : Lam} {cs : List (FlatCall fc)}
    (hs : ∀ c ∈ cs, ∀ a ∈ c.accs, a.signer = true → a.key ≠ 300 ∧ a.key < 1000) (h : flatLams F lam cs = .ok (F', lam')) : FlatLamRun .ex rent F lam cs lam' := by
  induction cs generalizing F lam with
  | nil =>
    simp only [flatLams, Except.ok.injEq, Prod.mk.injEq] at h
    obtain ⟨_, rfl⟩ := h
    exact .nil (fun _ => le_rfl) (fun _ _ => le_rfl)
  | cons c cs ih =>
    simp only [flatLams, bind_ok, Prod.exists] at h
    obtain ⟨ix, hd, F1, x, hr, lam1, hm, h⟩ := h
    refine .cons (fun _ => le_rfl) (fun _ _ => le_rfl) (fun a ha hsig => ?_) hd hr hm (ih (fun c hc => hs c (List.mem_cons_of_mem _ hc)) h)
    obtain ⟨h1, h2⟩ := hs c List.mem_cons_self a ha hsig
    exact ⟨h1, fun m (e : a.key = 1000 + m) => absurd (Nat.le_add_right 1000 m) (by rw [← e]; exact Nat.not_le.2 h2)⟩

def funded : Lam := fun k => if k = 40 then 10 ^ 9 else if k = 1021 then 7 else 0

/-- Initialize and add LSTs 21 and 22, all paid by 40; then the manager removes LST 21, refunding the lamports (also the 7 somebody had sent to its address) to 77. -/
def rentHist : List (FlatCall fc) :=
  [fcall [sg 40, rw 300, ro 11] .initialize,
   fcall [sg 301, sg 40, rw 1021, ro 21, ro 300, ro 11] (.addLst 30 20),
   fcall [sg 301, sg 40, rw 1022, ro 22, ro 300, ro 11] (.addLst 10 (-5)),
   fcall [sg 301, rw 77, rw 1021, ro 21, ro 300] .removeLst]

example : (flatLams .empty funded (rentHist.take 3)).toOption.map (fun q => (q.2 300, q.2 1021, q.2 1022, q.2 40)) =
    some (rent.min 34, rent.min 6, rent.min 6, 10 ^ 9 - rent.min 34 - (rent.min 6 - 7) - rent.min 6) := by decide +kernel
theorem rentHist_lams : (flatLams .empty funded rentHist).toOption.map (fun q => (q.2 300, q.2 1021, q.2 1022, q.2 77)) =
    some (rent.min 34, 0, rent.min 6, rent.min 6) := by decide +kernel

/-- The hypotheses of `C101_flat_exempt` are met by this history. -/
example : ∃ lam', FlatLamRun .ex rent FlatFee.empty funded rentHist lam' ∧ FlatExempt fc rent (flatHistory .ex rentHist) lam' := by
  have key : ∃ q, flatLams .empty funded rentHist = .ok q := by
    have := rentHist_lams
    cases h : flatLams .empty funded rentHist with
    | ok q => exact ⟨q, rfl⟩
    | error e => rw [h] at this; cases this
  obtain ⟨q, hq⟩ := key
  have run := flatLams_run (by decide) hq
  exact ⟨q.2, run, C101_flat_exempt (fun m (e : 1000 + m = 300) => absurd (Nat.le_add_right 1000 m) (by rw [e]; decide)) run⟩
example : (flatHistory .ex rentHist).fees 1022 ≠ none ∧ (flatHistory .ex rentHist).state ≠ none := by decide +kernel

/-- A payer that has not signed, and a fee account passed as read-only: refused. -/
example : (flatLams .empty funded (rentHist.take 1 ++ [fcall [sg 301, rw 40, rw 1021, ro 21, ro 300, ro 11] (.addLst 30 20)])).toOption.isNone ∧
    (flatLams .empty funded (rentHist.take 1 ++ [fcall [sg 301, sg 40, ro 1021, ro 21, ro 300, ro 11] (.addLst 30 20)])).toOption.isNone := by decide +kernel

/-- A calculator's Init by 40. -/
example : ((calcLam rent [sg 40, rw 601, ro 11] funded .init).toOption.map fun lam => (lam 601, lam 40)) = some (rent.min 40, 10 ^ 9 - rent.min 40) := by decide +kernel
example : ((calcInstruction .ex spl (chain 539) none spl.programId [sg 40, rw 601, ro 11] CalcIx.init.encode).toOption.map fun q => q.1) =
    some (some ⟨602, 0⟩) := by decide +kernel

theorem calcInit_run {lam' : Lam} {s : Option CalcState} {y : Option Range}
    (hr : calcInstruction .ex spl (chain 539) none spl.programId [sg 40, rw 601, ro 11] CalcIx.init.encode = .ok (s, y))
    (hm : calcLam rent [sg 40, rw 601, ro 11] funded .init = .ok lam') :
    CalcLamRun .ex rent spl none funded [⟨chain 539, [sg 40, rw 601, ro 11], CalcIx.init.encode⟩] lam' :=
  .cons (fun e => absurd rfl e) (by decide) ((decodeCalcIx_iff (ix := .init)).2 ⟨trivial, [], (List.append_nil _).symm⟩) hr hm (.nil fun _ => le_rfl)

end Ex
end S
