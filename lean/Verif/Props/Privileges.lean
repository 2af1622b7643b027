import Verif.Props.Conservation
import Verif.Props.Movements
import Verif.Props.Lamports
import Mathlib.Tactic.CasesM
/-
C63: an accepted instruction writes only accounts that were passed to it as writable (the runtime rejects any other write).
C64: nobody's tokens are debited without the owner's signature.
-/
set_option autoImplicit false
namespace S

/-- The instruction was given account `k` as writable. -/
def PassedWritable (accs : List Acc) (k : Pubkey) : Prop := ∃ a ∈ accs, a.key = k ∧ a.writable = true

variable {cfg : Cfg} {L : RatioLib} {env : Env cfg} {tx : TxInfo} {w w' : World} {accs : List Acc} {ix : Ix}

/-- Among the checks of an accepted instruction, finds that of an account's key and that of its writability. -/
local macro "passed" : tactic => `(tactic| (
  casesm* Exists _, And _ _
  refine ⟨_, ?_, by assumption, by assumption⟩
  simp))

theorem syncSolValue_passed {i : Nat} (h : processIx cfg L env tx w accs (.syncSolValue i) = .ok w') : PassedWritable accs cfg.poolState ∧ PassedWritable accs cfg.lstStateList := by
  simp only [processIx, processSync, verifySync, SyncAccs.load, bind_ok, Prod.exists, require_ok, exists_const, checkKeys_ok, checkWritable_ok, List.forall_mem_cons] at h
  obtain ⟨a, r, hl, h⟩ := h
  split at hl
  · cases hl
    refine ⟨?_, ?_⟩ <;> passed
  · cases hl

theorem swapExactIn_passed {args : SwapExactInArgs} (h : processIx cfg L env tx w accs (.swapExactIn args) = .ok w') : PassedWritable accs cfg.poolState ∧ PassedWritable accs cfg.lstStateList := by
  simp only [processIx, processSwapExactIn, verifySwap, SwapAccs.load, bind_ok, Prod.exists, require_ok, exists_const, checkKeys_ok, checkWritable_ok, List.forall_mem_cons] at h
  obtain ⟨_, a, r, hl, h⟩ := h
  split at hl
  · cases hl
    refine ⟨?_, ?_⟩ <;> passed
  · cases hl

theorem swapExactOut_passed {args : SwapExactOutArgs} (h : processIx cfg L env tx w accs (.swapExactOut args) = .ok w') : PassedWritable accs cfg.poolState ∧ PassedWritable accs cfg.lstStateList := by
  simp only [processIx, processSwapExactOut, verifySwap, SwapAccs.load, bind_ok, Prod.exists, require_ok, exists_const, checkKeys_ok, checkWritable_ok, List.forall_mem_cons] at h
  obtain ⟨_, a, r, hl, h⟩ := h
  split at hl
  · cases hl
    refine ⟨?_, ?_⟩ <;> passed
  · cases hl

theorem addLiquidity_passed {args : AddLiquidityArgs} (h : processIx cfg L env tx w accs (.addLiquidity args) = .ok w') : PassedWritable accs cfg.poolState ∧ PassedWritable accs cfg.lstStateList := by
  simp only [processIx, processAddLiquidity, verifyLiq, LiqAccs.load, bind_ok, Prod.exists, require_ok, exists_const, checkKeys_ok, checkWritable_ok, List.forall_mem_cons] at h
  obtain ⟨_, a, r, hl, h⟩ := h
  split at hl
  · cases hl
    refine ⟨?_, ?_⟩ <;> passed
  · cases hl

theorem removeLiquidity_passed {args : RemoveLiquidityArgs} (h : processIx cfg L env tx w accs (.removeLiquidity args) = .ok w') : PassedWritable accs cfg.poolState ∧ PassedWritable accs cfg.lstStateList := by
  simp only [processIx, processRemoveLiquidity, verifyLiq, LiqAccs.load, bind_ok, Prod.exists, require_ok, exists_const, checkKeys_ok, checkWritable_ok, List.forall_mem_cons] at h
  obtain ⟨_, a, r, hl, h⟩ := h
  split at hl
  · cases hl
    refine ⟨?_, ?_⟩ <;> passed
  · cases hl

theorem disableLstInput_passed {i : Nat} (h : processIx cfg L env tx w accs (.disableLstInput i) = .ok w') : PassedWritable accs cfg.lstStateList := by
  simp only [processIx, processDisableLstInput, processSetLstInput, LstInputAccs.load, bind_ok, Prod.exists, require_ok, exists_const, checkKeys_ok, checkWritable_ok, List.forall_mem_cons] at h
  obtain ⟨a, hl, h⟩ := h
  split at hl
  · cases hl
    passed
  · cases hl

theorem enableLstInput_passed {i : Nat} (h : processIx cfg L env tx w accs (.enableLstInput i) = .ok w') : PassedWritable accs cfg.lstStateList := by
  simp only [processIx, processEnableLstInput, processSetLstInput, LstInputAccs.load, bind_ok, Prod.exists, require_ok, exists_const, checkKeys_ok, checkWritable_ok, List.forall_mem_cons] at h
  obtain ⟨a, hl, h⟩ := h
  split at hl
  · cases hl
    passed
  · cases hl

theorem addLst_passed  (h : processIx cfg L env tx w accs (.addLst) = .ok w') : PassedWritable accs cfg.lstStateList := by
  simp only [processIx, processAddLst, AddLstAccs.load, bind_ok, Prod.exists, require_ok, exists_const, checkKeys_ok, checkWritable_ok, List.forall_mem_cons] at h
  obtain ⟨a, hl, h⟩ := h
  split at hl
  · cases hl
    passed
  · cases hl

theorem removeLst_passed {i : Nat} (h : processIx cfg L env tx w accs (.removeLst i) = .ok w') : PassedWritable accs cfg.lstStateList := by
  simp only [processIx, processRemoveLst, RemoveLstAccs.load, bind_ok, Prod.exists, require_ok, exists_const, checkKeys_ok, checkWritable_ok, List.forall_mem_cons] at h
  obtain ⟨a, hl, h⟩ := h
  split at hl
  · cases hl
    passed
  · cases hl

theorem setSolValueCalculator_passed {i : Nat} (h : processIx cfg L env tx w accs (.setSolValueCalculator i) = .ok w') : PassedWritable accs cfg.poolState ∧ PassedWritable accs cfg.lstStateList := by
  simp only [processIx, processSetSolValueCalculator, SetCalcAccs.load, bind_ok, Prod.exists, require_ok, exists_const, checkKeys_ok, checkWritable_ok, List.forall_mem_cons] at h
  obtain ⟨a, r, hl, h⟩ := h
  split at hl
  · cases hl
    refine ⟨?_, ?_⟩ <;> passed
  · cases hl

theorem setAdmin_passed  (h : processIx cfg L env tx w accs (.setAdmin) = .ok w') : PassedWritable accs cfg.poolState := by
  simp only [processIx, processSetAdmin, SetAdminAccs.load, bind_ok, Prod.exists, require_ok, exists_const, checkKeys_ok, checkWritable_ok, List.forall_mem_cons] at h
  obtain ⟨a, hl, h⟩ := h
  split at hl
  · cases hl
    passed
  · cases hl

theorem setProtocolFee_passed {args : SetProtocolFeeArgs} (h : processIx cfg L env tx w accs (.setProtocolFee args) = .ok w') : PassedWritable accs cfg.poolState := by
  simp only [processIx, processSetProtocolFee, SetFeeAccs.load, bind_ok, Prod.exists, require_ok, exists_const, checkKeys_ok, checkWritable_ok, List.forall_mem_cons] at h
  obtain ⟨a, hl, h⟩ := h
  split at hl
  · cases hl
    passed
  · cases hl

theorem setProtocolFeeBeneficiary_passed  (h : processIx cfg L env tx w accs (.setProtocolFeeBeneficiary) = .ok w') : PassedWritable accs cfg.poolState := by
  simp only [processIx, processSetBeneficiary, SetBeneficiaryAccs.load, bind_ok, Prod.exists, require_ok, exists_const, checkKeys_ok, checkWritable_ok, List.forall_mem_cons] at h
  obtain ⟨a, hl, h⟩ := h
  split at hl
  · cases hl
    passed
  · cases hl

theorem setPricingProgram_passed  (h : processIx cfg L env tx w accs (.setPricingProgram) = .ok w') : PassedWritable accs cfg.poolState := by
  simp only [processIx, processSetPricing, SetPricingAccs.load, bind_ok, Prod.exists, require_ok, exists_const, checkKeys_ok, checkWritable_ok, List.forall_mem_cons] at h
  obtain ⟨a, hl, h⟩ := h
  split at hl
  · cases hl
    passed
  · cases hl

theorem addDisablePoolAuthority_passed  (h : processIx cfg L env tx w accs (.addDisablePoolAuthority) = .ok w') : PassedWritable accs cfg.disablePoolAuthorityList := by
  simp only [processIx, processAddAuth, AddAuthAccs.load, bind_ok, Prod.exists, require_ok, exists_const, checkKeys_ok, checkWritable_ok, List.forall_mem_cons] at h
  obtain ⟨a, hl, h⟩ := h
  split at hl
  · cases hl
    passed
  · cases hl

theorem removeDisablePoolAuthority_passed {i : Nat} (h : processIx cfg L env tx w accs (.removeDisablePoolAuthority i) = .ok w') : PassedWritable accs cfg.disablePoolAuthorityList := by
  simp only [processIx, processRemoveAuth, RemoveAuthAccs.load, bind_ok, Prod.exists, require_ok, exists_const, checkKeys_ok, checkWritable_ok, List.forall_mem_cons] at h
  obtain ⟨a, hl, h⟩ := h
  split at hl
  · cases hl
    passed
  · cases hl

theorem disablePool_passed  (h : processIx cfg L env tx w accs (.disablePool) = .ok w') : PassedWritable accs cfg.poolState := by
  simp only [processIx, processDisablePool, DisablePoolAccs.load, bind_ok, Prod.exists, require_ok, exists_const, checkKeys_ok, checkWritable_ok, List.forall_mem_cons] at h
  obtain ⟨a, hl, h⟩ := h
  split at hl
  · cases hl
    passed
  · cases hl

theorem enablePool_passed  (h : processIx cfg L env tx w accs (.enablePool) = .ok w') : PassedWritable accs cfg.poolState := by
  simp only [processIx, processEnablePool, EnablePoolAccs.load, bind_ok, Prod.exists, require_ok, exists_const, checkKeys_ok, checkWritable_ok, List.forall_mem_cons] at h
  obtain ⟨a, hl, h⟩ := h
  split at hl
  · cases hl
    passed
  · cases hl

theorem startRebalance_passed {args : StartRebalanceArgs} (h : processIx cfg L env tx w accs (.startRebalance args) = .ok w') : PassedWritable accs cfg.poolState ∧ PassedWritable accs cfg.lstStateList ∧ PassedWritable accs cfg.rebalanceRecord := by
  simp only [processIx, processStartRebalance, verifyStartRebalance, StartRebAccs.load, bind_ok, Prod.exists, require_ok, exists_const, checkKeys_ok, checkWritable_ok, List.forall_mem_cons] at h
  obtain ⟨a, r, hl, h⟩ := h
  split at hl
  · cases hl
    refine ⟨?_, ?_, ?_⟩ <;> passed
  · cases hl

theorem endRebalance_passed  (h : processIx cfg L env tx w accs (.endRebalance) = .ok w') : PassedWritable accs cfg.poolState ∧ PassedWritable accs cfg.lstStateList ∧ PassedWritable accs cfg.rebalanceRecord := by
  simp only [processIx, processEndRebalance, EndRebAccs.load, bind_ok, Prod.exists, require_ok, exists_const, checkKeys_ok, checkWritable_ok, List.forall_mem_cons] at h
  obtain ⟨a, r, hl, h⟩ := h
  split at hl
  · cases hl
    refine ⟨?_, ?_, ?_⟩ <;> passed
  · cases hl

theorem setRebalanceAuthority_passed  (h : processIx cfg L env tx w accs (.setRebalanceAuthority) = .ok w') : PassedWritable accs cfg.poolState := by
  simp only [processIx, processSetRebAuth, SetRebAuthAccs.load, bind_ok, Prod.exists, require_ok, exists_const, checkKeys_ok, checkWritable_ok, List.forall_mem_cons] at h
  obtain ⟨a, hl, h⟩ := h
  split at hl
  · cases hl
    passed
  · cases hl

theorem initialize_passed  (h : processIx cfg L env tx w accs (.initialize) = .ok w') : PassedWritable accs cfg.poolState := by
  simp only [processIx, processInitialize, InitializeAccs.load, bind_ok, Prod.exists, require_ok, exists_const, checkKeys_ok, checkWritable_ok, List.forall_mem_cons] at h
  obtain ⟨a, hl, h⟩ := h
  split at hl
  · cases hl
    passed
  · cases hl

/-- C63, the controller's own accounts: if an accepted instruction changes the pool state, the LST list, the list of disable authorities or the rebalance record,
that account was passed to it as writable. -/
theorem C63_states (h : processIx cfg L env tx w accs ix = .ok w') :
    (w'.ctl.pool ≠ w.ctl.pool → PassedWritable accs cfg.poolState) ∧ (w'.ctl.lsts ≠ w.ctl.lsts → PassedWritable accs cfg.lstStateList) ∧
    (w'.ctl.auths ≠ w.ctl.auths → PassedWritable accs cfg.disablePoolAuthorityList) ∧
    (w'.ctl.rebal ≠ w.ctl.rebal → PassedWritable accs cfg.rebalanceRecord) := by
  have hc := processIx_ctl h
  cases ix with
  | syncSolValue i =>
    obtain ⟨p, _, hs⟩ := hc
    have hp := syncSolValue_passed h
    exact ⟨fun _ => hp.1, fun _ => hp.2, fun e => absurd hs.onlyValues.auths e, fun e => absurd hs.onlyValues.rebal e⟩
  | swapExactIn args =>
    obtain ⟨p, s, _, _, _, hs⟩ := hc
    have hp := swapExactIn_passed h
    exact ⟨fun _ => hp.1, fun _ => hp.2, fun e => absurd hs.onlyValues.auths e, fun e => absurd hs.onlyValues.rebal e⟩
  | swapExactOut args =>
    obtain ⟨p, s, _, _, _, hs⟩ := hc
    have hp := swapExactOut_passed h
    exact ⟨fun _ => hp.1, fun _ => hp.2, fun e => absurd hs.onlyValues.auths e, fun e => absurd hs.onlyValues.rebal e⟩
  | addLiquidity args =>
    obtain ⟨p, s, _, _, _, hs⟩ := hc
    have hp := addLiquidity_passed h
    exact ⟨fun _ => hp.1, fun _ => hp.2, fun e => absurd hs.onlyValues.auths e, fun e => absurd hs.onlyValues.rebal e⟩
  | removeLiquidity args =>
    obtain ⟨p, _, hs⟩ := hc
    have hp := removeLiquidity_passed h
    exact ⟨fun _ => hp.1, fun _ => hp.2, fun e => absurd hs.onlyValues.auths e, fun e => absurd hs.onlyValues.rebal e⟩
  | disableLstInput i =>
    have hp := disableLstInput_passed h
    obtain ⟨_, _, _, _, _, hc⟩ := hc
    rw [hc]
    exact ⟨fun e => absurd rfl e, fun _ => hp, fun e => absurd rfl e, fun e => absurd rfl e⟩
  | enableLstInput i =>
    have hp := enableLstInput_passed h
    obtain ⟨_, _, _, _, _, hc⟩ := hc
    rw [hc]
    exact ⟨fun e => absurd rfl e, fun _ => hp, fun e => absurd rfl e, fun e => absurd rfl e⟩
  | addLst =>
    have hp := addLst_passed h
    obtain ⟨_, _, _, _, _, _, _, _, _, _, hc⟩ := hc
    rw [hc]
    exact ⟨fun e => absurd rfl e, fun _ => hp, fun e => absurd rfl e, fun e => absurd rfl e⟩
  | removeLst i =>
    have hp := removeLst_passed h
    obtain ⟨_, _, _, _, _, _, hc⟩ := hc
    rw [hc]
    exact ⟨fun e => absurd rfl e, fun _ => hp, fun e => absurd rfl e, fun e => absurd rfl e⟩
  | setSolValueCalculator i =>
    obtain ⟨p, s, q, _, _, _, _, hs⟩ := hc
    have hp := setSolValueCalculator_passed h
    exact ⟨fun _ => hp.1, fun _ => hp.2, fun e => absurd hs.onlyValues.auths e, fun e => absurd hs.onlyValues.rebal e⟩
  | setAdmin =>
    have hp := setAdmin_passed h
    obtain ⟨_, _, _, _, hc⟩ := hc
    rw [hc]
    exact ⟨fun _ => hp, fun e => absurd rfl e, fun e => absurd rfl e, fun e => absurd rfl e⟩
  | setProtocolFee args =>
    have hp := setProtocolFee_passed h
    obtain ⟨_, _, _, _, _, hc⟩ := hc
    rw [hc]
    exact ⟨fun _ => hp, fun e => absurd rfl e, fun e => absurd rfl e, fun e => absurd rfl e⟩
  | setProtocolFeeBeneficiary =>
    have hp := setProtocolFeeBeneficiary_passed h
    obtain ⟨_, _, _, _, hc⟩ := hc
    rw [hc]
    exact ⟨fun _ => hp, fun e => absurd rfl e, fun e => absurd rfl e, fun e => absurd rfl e⟩
  | setPricingProgram =>
    have hp := setPricingProgram_passed h
    obtain ⟨_, _, _, _, _, hc⟩ := hc
    rw [hc]
    exact ⟨fun _ => hp, fun e => absurd rfl e, fun e => absurd rfl e, fun e => absurd rfl e⟩
  | withdrawProtocolFees n =>
    obtain ⟨p, _, _, hc⟩ := hc
    rw [hc]; exact ⟨fun e => absurd rfl e, fun e => absurd rfl e, fun e => absurd rfl e, fun e => absurd rfl e⟩
  | addDisablePoolAuthority =>
    have hp := addDisablePoolAuthority_passed h
    obtain ⟨_, _, _, _, _, hc⟩ := hc
    rw [hc]
    exact ⟨fun e => absurd rfl e, fun e => absurd rfl e, fun _ => hp, fun e => absurd rfl e⟩
  | removeDisablePoolAuthority i =>
    have hp := removeDisablePoolAuthority_passed h
    obtain ⟨_, _, _, _, _, hc⟩ := hc
    rw [hc]
    exact ⟨fun e => absurd rfl e, fun e => absurd rfl e, fun _ => hp, fun e => absurd rfl e⟩
  | disablePool =>
    have hp := disablePool_passed h
    obtain ⟨_, _, _, hc⟩ := hc
    rw [hc]
    exact ⟨fun _ => hp, fun e => absurd rfl e, fun e => absurd rfl e, fun e => absurd rfl e⟩
  | enablePool =>
    have hp := enablePool_passed h
    obtain ⟨_, _, _, _, hc⟩ := hc
    rw [hc]
    exact ⟨fun _ => hp, fun e => absurd rfl e, fun e => absurd rfl e, fun e => absurd rfl e⟩
  | startRebalance args =>
    have hp := startRebalance_passed h
    obtain ⟨p, s, c2, c3, p2, p3, m, _, _, _, _, _, _, h2, _, h3, _, _, hc⟩ := hc
    exact ⟨fun _ => hp.1, fun _ => hp.2.1, fun e => absurd (by rw [hc]; exact h3.onlyValues.auths.trans h2.onlyValues.auths) e, fun _ => hp.2.2⟩
  | endRebalance =>
    have hp := endRebalance_passed h
    obtain ⟨p, rr, c1, p1, _, _, _, _, h1, _, _, hc⟩ := hc
    exact ⟨fun _ => hp.1, fun _ => hp.2.1, fun e => absurd (by rw [hc]; exact h1.onlyValues.auths) e, fun _ => hp.2.2⟩
  | setRebalanceAuthority =>
    have hp := setRebalanceAuthority_passed h
    obtain ⟨_, _, _, _, hc⟩ := hc
    rw [hc]
    exact ⟨fun _ => hp, fun e => absurd rfl e, fun e => absurd rfl e, fun e => absurd rfl e⟩
  | «initialize» =>
    have hp := initialize_passed h
    obtain ⟨_, _, _, hc⟩ := hc
    rw [hc]
    exact ⟨fun _ => hp, fun e => absurd rfl e, fun e => absurd rfl e, fun e => absurd rfl e⟩

/-- C63, token accounts and mints. -/
theorem C63_tokens (hq : env.Quiet) (h : processIx cfg L env tx w accs ix = .ok w') {k : Pubkey}
    (hk : w'.led.tok k ≠ w.led.tok k ∨ w'.led.mints k ≠ w.led.mints k) : PassedWritable accs k := by
  obtain ⟨ops, ht, ha⟩ := processIx_traceE hq.within h
  by_contra hcon
  obtain ⟨h1, h2⟩ := ht.frame (k := k) fun op ho hm => hcon ((ha op ho).2 k hm)
  rcases hk with hk | hk
  · exact hk h1
  · exact hk h2

/-- C63, lamports: only those of accounts passed as writable change. -/
theorem C63_lamports {r : Rent} {lam lam' : Lam} (h : processIx cfg L env tx w accs ix = .ok w') (hlam : lamIx r w accs lam ix = .ok lam') {k : Pubkey}
    (hk : lam' k ≠ lam k) : PassedWritable accs k := by
  suffices hs : Conserves ((accs.filter Acc.writable).map Acc.key).toFinset lam lam' by
    by_contra hcon
    refine hk (hs.2 k fun hm => hcon ?_)
    simp only [List.mem_toFinset, List.mem_map, List.mem_filter] at hm
    obtain ⟨a, ⟨h1, h2⟩, h3⟩ := hm
    exact ⟨a, h1, h3, h2⟩
  have hF : ∀ {a : Acc}, a ∈ accs → a.writable = true → a.key ∈ ((accs.filter Acc.writable).map Acc.key).toFinset :=
    fun ha hw => List.mem_toFinset.2 (List.mem_map_of_mem (List.mem_filter.2 ⟨ha, hw⟩))
  cases ix with
  | «initialize» =>
    simp only [lamIx, bind_ok] at hlam
    obtain ⟨a, hl, hlam⟩ := hlam
    obtain ⟨m1, m2, _⟩ := InitializeAccs.load_lam hl
    obtain ⟨rr⟩ := processInitialize_inv h
    obtain rfl : rr.a = a := by have := rr.load; rw [hl] at this; exact (Except.ok.inj this).symm
    exact topUp_conserves (hF m1 (rr.wr _ (by simp))) (hF m2 (rr.wr _ (by simp))) hlam
  | addLst =>
    simp only [lamIx, bind_ok] at hlam
    obtain ⟨a, hl, l1, h1, l2, h2, hlam⟩ := hlam
    obtain ⟨m1, m2, m3, m4, _⟩ := AddLstAccs.load_lam hl
    obtain ⟨rr⟩ := processAddLst_inv h
    obtain rfl : rr.a = a := by have := rr.load; rw [hl] at this; exact (Except.ok.inj this).symm
    have f1 := hF m1 (rr.wr _ (by simp))
    exact ((topUpAta_conserves f1 (hF m2 (rr.wr _ (by simp))) h1).trans (topUpAta_conserves f1 (hF m3 (rr.wr _ (by simp))) h2)).trans
      (topUp_conserves f1 (hF m4 (rr.wr _ (by simp))) hlam)
  | removeLst i =>
    simp only [lamIx, bind_ok] at hlam
    obtain ⟨a, hl, l1, h1, l2, h2, hlam⟩ := hlam
    obtain ⟨m1, m2, m3, m4, _⟩ := RemoveLstAccs.load_lam hl
    obtain ⟨rr⟩ := processRemoveLst_inv h
    obtain rfl : rr.a = a := by have := rr.load; rw [hl] at this; exact (Except.ok.inj this).symm
    have f1 := hF m1 (rr.wr _ (by simp))
    exact ((closeTokenLam_conserves (hF m3 (rr.wr _ (by simp))) f1 h1).trans (closeTokenLam_conserves (hF m2 (rr.wr _ (by simp))) f1 h2)).trans
      (shrinkLam_conserves (hF m4 (rr.wr _ (by simp))) f1 hlam)
  | addDisablePoolAuthority =>
    simp only [lamIx, bind_ok] at hlam
    obtain ⟨a, hl, hlam⟩ := hlam
    obtain ⟨m1, m2, _⟩ := AddAuthAccs.load_lam hl
    simp only [processIx, processAddAuth, bind_ok, hl, Except.ok.injEq, exists_eq_left', require_ok, exists_const, getPool_ok, checkKeys_ok, checkWritable_ok,
      List.forall_mem_cons] at h
    obtain ⟨_, p, _, _, ⟨w1, w2, _⟩, _⟩ := h
    exact topUp_conserves (hF m1 w1) (hF m2 w2) hlam
  | removeDisablePoolAuthority i =>
    simp only [lamIx, bind_ok] at hlam
    obtain ⟨a, hl, hlam⟩ := hlam
    obtain ⟨m1, m2, _⟩ := RemoveAuthAccs.load_lam hl
    simp only [processIx, processRemoveAuth, bind_ok, hl, Except.ok.injEq, exists_eq_left', require_ok, exists_const, okOr_ok, checkKeys_ok, checkWritable_ok,
      List.forall_mem_cons] at h
    obtain ⟨_, _, _, _, _, ⟨w1, w2, _⟩, _⟩ := h
    exact shrinkLam_conserves (hF m2 w2) (hF m1 w1) hlam
  | startRebalance args =>
    simp only [lamIx, bind_ok, Prod.exists] at hlam
    obtain ⟨a, rest, hl, hlam⟩ := hlam
    obtain ⟨m1, m2⟩ := StartRebAccs.load_lam hl
    obtain ⟨rr⟩ := processStartRebalance_inv h
    obtain rfl : rr.a = a := by have := rr.load; rw [hl] at this; exact congrArg Prod.fst (Except.ok.inj this).symm
    exact pay_conserves (hF m1 (rr.wr _ (by simp))) (hF m2 (rr.wr _ (by simp))) hlam
  | endRebalance =>
    simp only [lamIx, bind_ok, Prod.exists] at hlam
    obtain ⟨a, rest, hl, hlam⟩ := hlam
    obtain ⟨m1, m2⟩ := EndRebAccs.load_lam hl
    simp only [processIx, processEndRebalance, bind_ok, hl, Except.ok.injEq, exists_eq_left', require_ok, exists_const, okOr_ok,
      getPool_ok, matchLst_ok, mintProgram_ok, poolReserves_ok, checkKeys_ok, checkWritable_ok, List.forall_mem_cons] at h
    obtain ⟨_, _, _, p, _, rr, _, dst, _, tp, _, res, _, _, ⟨w1, _, w3, _⟩, _⟩ := h
    exact pay_conserves (hF m2 w3) (hF m1 w1) hlam
  | _ => cases hlam; exact .refl _ _

/-! ### C64 -/

/-- The most that an instruction may take from accounts that are not the pool's: the amount or limit its sender gave. -/
def Ix.mostTaken : Ix → Nat
  | .swapExactIn args => args.amount
  | .swapExactOut args => args.maxAmountIn
  | .addLiquidity args => args.lstAmount
  | .removeLiquidity args => args.lpTokenAmount
  | _ => 0

/-- Account `k`, once `a`, has lost at most `n`, and nothing if its owner is not `auth`. -/
def Loses (l : Ledger) (k : Pubkey) (a : TokenAcc) (n : Nat) (auth : Pubkey) : Prop :=
  ∃ m, l.tok k = some { a with amount := m } ∧ a.amount ≤ m + n ∧ (m < a.amount → a.owner = auth)

theorem Loses.init {l : Ledger} {k : Pubkey} {a : TokenAcc} (h : l.tok k = some a) (auth : Pubkey) : Loses l k a 0 auth :=
  ⟨a.amount, h, Nat.le_refl _, fun h => absurd h (Nat.lt_irrefl _)⟩

theorem Loses.mono {l : Ledger} {k auth : Pubkey} {a : TokenAcc} {n m : Nat} (h : Loses l k a n auth) (hnm : n ≤ m) : Loses l k a m auth := by
  obtain ⟨x, h1, h2, h3⟩ := h
  exact ⟨x, h1, by omega, h3⟩

theorem Loses.transfer {l l' : Ledger} {k auth : Pubkey} {a : TokenAcc} {n x : Nat} {t : TransferAccs} (h : Loses l k a n auth)
    (ht : transfer l t x = .ok l') (he : t.authority = auth) : Loses l' k a (n + x) auth := by
  obtain ⟨m, h1, h2, h3⟩ := h
  obtain ⟨mt, sa, da, f⟩ := transfer_ok.1 ht
  have hen := f.enough
  rcases f.eq with ⟨_, rfl⟩ | ⟨hne, hfit, rfl⟩
  · exact ⟨m, h1, by omega, h3⟩
  · by_cases e1 : k = t.dst
    · have := f.dst; rw [← e1, h1] at this; cases this
      exact ⟨m + x, by simp [e1], by omega, fun hlt => h3 (by omega)⟩
    · by_cases e2 : k = t.src
      · have hs := f.src; rw [← e2, h1] at hs; cases hs
        exact ⟨m - x, by rw [setTok_tok, upd_ne _ _ e1, setTok_tok, e2]; simp, by omega, fun _ => f.owner.trans he⟩
      · exact ⟨m, by simp [upd_ne _ _ e1, upd_ne _ _ e2, h1], by omega, h3⟩

/-- A transfer signed by another does not take from the account. -/
theorem Loses.other {l l' : Ledger} {k auth : Pubkey} {a : TokenAcc} {n x : Nat} {t : TransferAccs} (h : Loses l k a n auth)
    (ht : S.transfer l t x = .ok l') (he : a.owner ≠ t.authority) : Loses l' k a n auth := by
  obtain ⟨m, h1, h2, h3⟩ := h
  obtain ⟨mt, sa, da, f⟩ := transfer_ok.1 ht
  rcases f.eq with ⟨_, rfl⟩ | ⟨hne, hfit, rfl⟩
  · exact ⟨m, h1, h2, h3⟩
  · by_cases e1 : k = t.dst
    · have := f.dst; rw [← e1, h1] at this; cases this
      exact ⟨m + x, by simp [e1], by omega, fun hlt => h3 (by omega)⟩
    · by_cases e2 : k = t.src
      · have hs := f.src; rw [← e2, h1] at hs; cases hs
        exact absurd f.owner he
      · exact ⟨m, by simp [upd_ne _ _ e1, upd_ne _ _ e2, h1], h2, h3⟩

theorem Loses.mint {l l' : Ledger} {k auth mint dst tp au : Pubkey} {a : TokenAcc} {n x : Nat} (h : Loses l k a n auth)
    (ht : mintTo l mint dst tp au x = .ok l') : Loses l' k a n auth := by
  obtain ⟨m, h1, h2, h3⟩ := h
  obtain ⟨m0, b, f⟩ := mintTo_ok.1 ht
  rw [f.eq]
  by_cases e1 : k = dst
  · have := f.hdst; rw [← e1, h1] at this; cases this
    exact ⟨m + x, by simp [e1], by omega, fun hlt => h3 (by omega)⟩
  · exact ⟨m, by simp [upd_ne _ _ e1, h1], h2, h3⟩

theorem Loses.burn {l l' : Ledger} {k auth mint src tp : Pubkey} {a : TokenAcc} {n x : Nat} (h : Loses l k a n auth)
    (ht : S.burn l mint src tp auth x = .ok l') : Loses l' k a (n + x) auth := by
  obtain ⟨m, h1, h2, h3⟩ := h
  obtain ⟨m0, b, f⟩ := burn_ok.1 ht
  have := f.enough
  rw [f.eq]
  by_cases e1 : k = src
  · have hs := f.hsrc; rw [← e1, h1] at hs; cases hs
    exact ⟨m - x, by simp [e1], by omega, fun _ => f.owner⟩
  · exact ⟨m, by simp [upd_ne _ _ e1, h1], by omega, h3⟩

theorem SwapRun.loses {srcAccs dstAccs srcIdx dstIdx srcIn dstOut : Nat} (r : SwapRun L env w accs srcAccs dstAccs srcIdx dstIdx srcIn dstOut w')
    (hq : env.Quiet) (h5 : r.l5 = w.led) {k : Pubkey} {a : TokenAcc} (hk : w.led.tok k = some a) (h1 : a.owner ≠ cfg.poolState) :
    Loses w'.led k a srcIn r.a.signer.key := by
  have e6 : w'.led = r.fin.l3 := (r.fin.sync6.quiet hq).trans (r.fin.sync5.quiet hq)
  rw [e6]
  have ht := r.fin.t1
  simp only [h5] at ht
  have := (Loses.init hk r.a.signer.key).transfer ht rfl
  rw [Nat.zero_add] at this
  exact (this.other r.fin.t2 (by simpa [r.ver.pool_key] using h1)).other r.fin.t3 (by simpa [r.ver.pool_key] using h1)

/-- C64: an accepted instruction takes tokens from an account that is not the pool's only if the account's owner signed it, and not more than the amount or limit
given in the instruction — none at all unless it is a swap, a deposit or a redemption. Nothing else of the account changes, and it is not closed. -/
theorem C64_debits (hq : env.Quiet) (h : processIx cfg L env tx w accs ix = .ok w') {k : Pubkey} {a : TokenAcc} (hk : w.led.tok k = some a)
    (h1 : a.owner ≠ cfg.poolState) (h2 : a.owner ≠ cfg.protocolFee) :
    ∃ n, w'.led.tok k = some { a with amount := n } ∧ a.amount ≤ n + ix.mostTaken ∧ (n < a.amount → SignedBy accs a.owner) := by
  have same : w'.led = w.led → ∃ n, w'.led.tok k = some { a with amount := n } ∧ a.amount ≤ n + ix.mostTaken ∧ (n < a.amount → SignedBy accs a.owner) :=
    fun e => ⟨a.amount, by rw [e, hk], Nat.le_add_right _ _, fun h => absurd h (Nat.lt_irrefl _)⟩
  have fin : ∀ {s : Acc}, s ∈ accs → s.signer = true → Loses w'.led k a ix.mostTaken s.key →
      ∃ n, w'.led.tok k = some { a with amount := n } ∧ a.amount ≤ n + ix.mostTaken ∧ (n < a.amount → SignedBy accs a.owner) := by
    rintro s hs hsig ⟨m, g1, g2, g3⟩
    exact ⟨m, g1, g2, fun hlt => ⟨s, hs, hsig, (g3 hlt).symm⟩⟩
  have fin0 : ∀ {au : Pubkey}, a.owner ≠ au → Loses w'.led k a 0 au →
      ∃ n, w'.led.tok k = some { a with amount := n } ∧ a.amount ≤ n + ix.mostTaken ∧ (n < a.amount → SignedBy accs a.owner) := by
    rintro au hne ⟨m, g1, g2, g3⟩
    exact ⟨m, g1, by omega, fun hlt => absurd (g3 hlt) hne⟩
  cases ix with
  | syncSolValue i => obtain ⟨r⟩ := processSync_inv h; exact same (r.run.quiet hq)
  | swapExactIn args =>
    obtain ⟨_, ⟨r⟩⟩ := processSwapExactIn_inv h
    have h2 : r.w2.led = w.led := (r.sync1.quiet hq).trans (r.sync0.quiet hq)
    have h3 : r.l3 = w.led := (hq.calcF r.ask2).trans h2
    have h4 : r.l4 = w.led := (hq.priceF r.ask3).trans h3
    have h5 : r.l5 = w.led := (hq.calcF r.ask4).trans h4
    exact fin (r.a.load_mem r.ver.load) r.ver.signer (r.toSwapRun.loses hq h5 hk h1)
  | swapExactOut args =>
    obtain ⟨_, ⟨r⟩⟩ := processSwapExactOut_inv h
    have h2 : r.w2.led = w.led := (r.sync1.quiet hq).trans (r.sync0.quiet hq)
    have h3 : r.l3 = w.led := (hq.calcF r.ask2).trans h2
    have h4 : r.l4 = w.led := (hq.priceF r.ask3).trans h3
    have h5 : r.l5 = w.led := (hq.calcF r.ask4).trans h4
    exact fin (r.a.load_mem r.ver.load) r.ver.signer ((r.toSwapRun.loses hq h5 hk h1).mono r.maxIn)
  | addLiquidity args =>
    obtain ⟨r⟩ := processAddLiquidity_inv h
    have h2 : r.l2 = w.led := (hq.calcF r.ask1).trans (r.sync0.quiet hq)
    have h3 : r.l3 = w.led := (hq.priceF r.ask2).trans h2
    have e6 : w'.led = r.l6 := r.sync3.quiet hq
    have ht := r.t1
    rw [h3] at ht
    refine fin (r.a.load_mem r.ver.load) r.ver.signer (Loses.mono ?_ (n := r.fees.toReserves + r.fees.toProtocolFees) ?_)
    · rw [e6]
      have := ((Loses.init hk r.a.signer.key).transfer ht rfl).transfer r.t2 rfl
      rw [Nat.zero_add] at this
      exact this.mint r.t3
    · exact le_of_eq ((depositFee_ok r.hfees).1)
  | removeLiquidity args =>
    obtain ⟨r⟩ := processRemoveLiquidity_inv h
    have h2 : r.l2 = w.led := (hq.priceF r.ask1).trans (r.sync0.quiet hq)
    have h3 : r.l3 = w.led := (hq.calcF r.ask2).trans h2
    have e6 : w'.led = r.l6 := r.sync3.quiet hq
    have ht := r.t1
    rw [h3] at ht
    have := (Loses.init hk r.a.signer.key).burn ht
    rw [Nat.zero_add] at this
    refine fin (r.a.load_mem r.ver.load) r.ver.signer ?_
    rw [e6]
    exact (this.other r.t2 (by simpa [r.ver.pool_key] using h1)).other r.t3 (by simpa [r.ver.pool_key] using h1)
  | disableLstInput i =>
    obtain ⟨_, _, _, _, _, _, _, _, _, _, _, rfl⟩ := processSetLstInput_inv (flag := 1) h
    exact same rfl
  | enableLstInput i =>
    obtain ⟨_, _, _, _, _, _, _, _, _, _, _, rfl⟩ := processSetLstInput_inv (flag := 0) h
    exact same rfl
  | addLst =>
    obtain ⟨r⟩ := processAddLst_inv h
    have key : ∀ {l l' : Ledger} {kk wa tp m : Pubkey}, createAtaIfNotExist cfg l kk wa tp m = .ok l' → l.tok k = some a → l'.tok k = some a := by
      intro l l' kk wa tp m hc hl
      unfold createAtaIfNotExist at hc
      split at hc
      · obtain ⟨_, hn, _, rfl⟩ := createAta_ok.1 hc
        have : k ≠ kk := by rintro rfl; rw [hn] at hl; cases hl
        simp [upd_ne _ _ this, hl]
      · simp only [bind_ok, require_ok, exists_const, pure_ok] at hc
        obtain ⟨_, rfl⟩ := hc
        exact hl
    have := key r.c2 (key r.c1 hk)
    rw [r.eq]
    exact ⟨a.amount, this, Nat.le_add_right _ _, fun h => absurd h (Nat.lt_irrefl _)⟩
  | removeLst i =>
    obtain ⟨r⟩ := processRemoveLst_inv h
    obtain ⟨b, hb, _, hbo, _, e1⟩ := closeToken_ok.1 r.c1
    obtain ⟨c, hc, _, hco, _, e2⟩ := closeToken_ok.1 r.c2
    have n1 : k ≠ r.a.protocolFeeAccumulator.key := by
      intro e; rw [← e, hk] at hb; cases hb; exact h2 hbo
    have hk1 : r.l1.tok k = some a := by rw [e1]; simp [upd_ne _ _ n1, hk]
    have n2 : k ≠ r.a.poolReserves.key := by
      intro e; rw [← e, hk1] at hc; cases hc; exact h1 hco
    rw [r.eq]
    exact ⟨a.amount, by rw [e2]; simp [upd_ne _ _ n2, hk1], Nat.le_add_right _ _, fun h => absurd h (Nat.lt_irrefl _)⟩
  | setSolValueCalculator i =>
    obtain ⟨r⟩ := processSetSolValueCalculator_inv h
    exact same (r.run.quiet hq)
  | setAdmin => obtain ⟨_, _, _, _, _, _, rfl⟩ := processSetAdmin_inv h; exact same rfl
  | setProtocolFee args => obtain ⟨_, _, _, _, _, _, _, _, _, _, rfl⟩ := processSetProtocolFee_inv h; exact same rfl
  | setProtocolFeeBeneficiary => obtain ⟨_, _, _, _, _, _, _, _, rfl⟩ := processSetBeneficiary_inv h; exact same rfl
  | setPricingProgram => obtain ⟨_, _, _, _, _, _, _, _, _, rfl⟩ := processSetPricing_inv h; exact same rfl
  | withdrawProtocolFees n =>
    obtain ⟨r⟩ := processWithdraw_inv h
    refine fin0 h2 ?_
    rw [r.eq]
    exact (Loses.init hk _).other r.t1 h2
  | addDisablePoolAuthority => obtain ⟨_, _, _, _, _, _, _, rfl⟩ := processAddAuth_inv h; exact same rfl
  | removeDisablePoolAuthority i => obtain ⟨_, _, _, _, _, _, _, rfl⟩ := processRemoveAuth_inv h; exact same rfl
  | disablePool => obtain ⟨_, _, _, _, _, _, _, _, rfl⟩ := processDisablePool_inv h; exact same rfl
  | enablePool => obtain ⟨_, _, _, _, _, _, _, rfl⟩ := processEnablePool_inv h; exact same rfl
  | startRebalance args =>
    obtain ⟨r⟩ := processStartRebalance_inv h
    refine fin0 h1 ?_
    have e2 : r.w2.led = w.led := (r.sync1.quiet hq).trans (r.sync0.quiet hq)
    have ht := r.t1
    rw [e2] at ht
    have e3 : w'.led = r.l3 := (congrArg World.led r.eq).trans (r.sync2.quiet hq)
    rw [e3]
    exact (Loses.init hk _).other ht h1
  | endRebalance =>
    obtain ⟨r⟩ := processEndRebalance_inv h
    exact same ((congrArg World.led r.eq).trans (r.sync0.quiet hq))
  | setRebalanceAuthority => obtain ⟨_, _, _, _, _, _, _, _, rfl⟩ := processSetRebAuth_inv h; exact same rfl
  | «initialize» =>
    obtain ⟨r⟩ := processInitialize_inv h
    obtain ⟨m1, _, _, _, e1⟩ := setMintAuth_ok.1 r.s1
    obtain ⟨m2, _, _, _, e2⟩ := setFreezeAuth_ok.1 r.s2
    rw [r.eq]
    exact ⟨a.amount, by rw [e2, e1]; exact hk, Nat.le_add_right _ _, fun h => absurd h (Nat.lt_irrefl _)⟩

-- In the example swap the user's account 41 (owner 40, who signs) loses exactly the 3000 given in the instruction, and the accounts that change — the
-- user's 41 and 42, the reserves, the fee accumulator, the pool state (1) and the list (2) — are all passed as writable.
example : Ex.env.Quiet := Env.pure_quiet
example : (processIx Ex.cfg .ex Ex.env ⟨[], 0⟩ (Ex.st 5) Ex.swapAB (.swapExactIn ⟨1, 1, 0, 1, 10, 3000⟩)).toOption.map
      (fun w => ((w.led.tok 41).map TokenAcc.amount, decide (w.ctl.pool = (Ex.st 5).ctl.pool), decide (w.ctl.lsts = (Ex.st 5).ctl.lsts))) =
      some (some 967000, false, false) ∧
    ((Ex.st 5).led.tok 41).map (fun a => (a.owner, a.amount)) = some (40, 970000) ∧ (∃ a ∈ Ex.swapAB, a.signer = true ∧ a.key = 40) ∧
    ∀ k ∈ [41, 42, Ex.resA, Ex.resB, Ex.feeB, 1, 2], ∃ a ∈ Ex.swapAB, a.key = k ∧ a.writable = true := by decide +kernel

end S
