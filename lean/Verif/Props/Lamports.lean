import Verif.Lamports
import Verif.Props.Rebalance
import Verif.Props.Client
import Verif.Example
import Verif.Proofs.AdminRuns
import Mathlib.Algebra.BigOperators.Group.Finset.Basic
import Mathlib.Algebra.BigOperators.Group.Finset.Piecewise
/-
C62: rent of the controller's accounts.
-/
set_option autoImplicit false
namespace S

/-! ### Specification -/

/-- `payer` brought each of these accounts up to the given balance, if it had less; nothing else changed. -/
structure Raised (lam lam' : Lam) (payer : Pubkey) (ts : List (Pubkey × Nat)) : Prop where
  paid : lam' payer + (ts.map fun t => t.2 - lam t.1).sum = lam payer
  raised : ∀ t ∈ ts, lam' t.1 = max (lam t.1) t.2
  rest : ∀ k, k ≠ payer → (∀ t ∈ ts, t.1 ≠ k) → lam' k = lam k

/-- Each of these accounts kept at most the given balance, and `refund` got the rest of it; nothing else changed. -/
structure Refunded (lam lam' : Lam) (refund : Pubkey) (ts : List (Pubkey × Nat)) : Prop where
  refunded : lam' refund = lam refund + (ts.map fun t => lam t.1 - t.2).sum
  kept : ∀ t ∈ ts, lam' t.1 = min (lam t.1) t.2
  rest : ∀ k, k ≠ refund → (∀ t ∈ ts, t.1 ≠ k) → lam' k = lam k

/-- The controller's accounts have different addresses, and none is an associated token account. -/
structure Cfg.Apart (cfg : Cfg) : Prop where
  owned : cfg.owned.Nodup
  ata : ∀ w p m b k, cfg.ata w p m b = some k → k ∉ cfg.owned

/-- What the accounts that exist hold at least. During a rebalancing the pool state may lack the lamport that is in the record. -/
structure RentExempt (cfg : Cfg) (r : Rent) (c : Ctl) (lam : Lam) : Prop where
  pool : ∀ p, c.pool = some p → r.min 176 ≤ lam cfg.poolState + (if c.rebal = none then 0 else 1)
  lsts : c.lsts ≠ [] → r.min (c.lsts.length * 80) ≤ lam cfg.lstStateList
  auths : c.auths ≠ [] → r.min (c.auths.length * 32) ≤ lam cfg.disablePoolAuthorityList
  rebal : c.rebal ≠ none → 1 ≤ lam cfg.rebalanceRecord

/-- The signers are neither accounts of the controller nor associated token accounts (which have no private keys). -/
def RealSigners (cfg : Cfg) (accs : List Acc) : Prop :=
  ∀ a ∈ accs, a.signer = true → a.key ∉ cfg.owned ∧ ∀ w p m b, cfg.ata w p m b ≠ some a.key

/-! ### Proofs -/

theorem pay_iff {lam lam' : Lam} {src dst : Pubkey} {n : Nat} (hne : src ≠ dst) :
    pay lam src dst n = .ok lam' ↔ n ≤ lam src ∧ lam' = upd (upd lam src (lam src - n)) dst (lam dst + n) := by
  simp only [pay, bind_ok, require_ok, exists_const, if_neg hne, pure_ok]
  exact ⟨fun h => ⟨h.1, h.2.symm⟩, fun h => ⟨h.1, h.2.symm⟩⟩

theorem pay_any {lam lam' : Lam} {src dst : Pubkey} {n : Nat} (h : pay lam src dst n = .ok lam') :
    (src = dst ∧ lam' = lam) ∨ (src ≠ dst ∧ n ≤ lam src ∧ lam' = upd (upd lam src (lam src - n)) dst (lam dst + n)) := by
  by_cases hne : src = dst
  · simp only [pay, bind_ok, require_ok, exists_const, if_pos hne, pure_ok] at h
    exact .inl ⟨hne, h.2.symm⟩
  · exact .inr ⟨hne, (pay_iff hne).1 h⟩

/-- A payment takes from the source only. -/
theorem pay_others {lam lam' : Lam} {src dst : Pubkey} {n : Nat} (h : pay lam src dst n = .ok lam') {k : Pubkey} (hk : k ≠ src) : lam k ≤ lam' k := by
  rcases pay_any h with ⟨_, rfl⟩ | ⟨_, _, rfl⟩
  · exact le_rfl
  · by_cases hd : k = dst
    · subst hd; simp
    · rw [upd_ne _ _ hd, upd_ne _ _ hk]

theorem topUp_others {lam lam' : Lam} {src dst : Pubkey} {n : Nat} (h : topUp lam src dst n = .ok lam') {k : Pubkey} (hk : k ≠ src) : lam k ≤ lam' k := by
  unfold topUp at h
  split at h
  · exact pay_others h hk
  · cases h; exact le_rfl

theorem topUp_iff {lam lam' : Lam} {payer acc : Pubkey} {need : Nat} (hne : payer ≠ acc) :
    topUp lam payer acc need = .ok lam' ↔ Raised lam lam' payer [(acc, need)] := by
  unfold topUp
  split
  · rename_i hp
    rw [pay_iff hne]
    constructor
    · rintro ⟨h1, rfl⟩
      refine ⟨by simp [upd_ne _ _ hne]; omega, by simp; omega, fun k hk ht => ?_⟩
      have : k ≠ acc := fun h => ht (acc, need) (by simp) h.symm
      rw [upd_ne _ _ this, upd_ne _ _ hk]
    · intro h
      have hp := h.paid
      have hr := h.raised (acc, need) (by simp)
      simp at hp hr
      refine ⟨by omega, ?_⟩
      funext k
      by_cases h1 : k = acc
      · subst h1; rw [hr]; simp; omega
      · rw [upd_ne _ _ h1]
        by_cases h2 : k = payer
        · subst h2; simp; omega
        · rw [upd_ne _ _ h2, h.rest k h2 (by simpa using fun h => h1 h.symm)]
  · rename_i hp
    constructor
    · intro h; cases h
      exact ⟨by simp; omega, by simp; omega, fun _ _ _ => rfl⟩
    · intro h
      congr 1
      funext k
      have hp := h.paid
      have hr := h.raised (acc, need) (by simp)
      simp at hp hr
      by_cases h1 : k = acc
      · subst h1; rw [hr]; omega
      · by_cases h2 : k = payer
        · subst h2; omega
        · rw [h.rest k h2 (by simpa using fun h => h1 h.symm)]

theorem Raised.nil {lam lam' : Lam} {payer : Pubkey} : Raised lam lam' payer [] ↔ lam' = lam := by
  constructor
  · intro h
    funext k
    by_cases hk : k = payer
    · subst hk; simpa using h.paid
    · exact h.rest k hk (by simp)
  · rintro rfl; exact ⟨by simp, by simp, fun _ _ _ => rfl⟩

/-- Several accounts are topped up one after the other. -/
theorem Raised.cons {lam lam' : Lam} {payer : Pubkey} {t : Pubkey × Nat} {ts : List (Pubkey × Nat)} (hp : payer ≠ t.1) (hts : ∀ u ∈ ts, u.1 ≠ t.1)
    (hp' : ∀ u ∈ ts, payer ≠ u.1) :
    (∃ lam1, Raised lam lam1 payer [t] ∧ Raised lam1 lam' payer ts) ↔ Raised lam lam' payer (t :: ts) := by
  have hsum : ∀ lam1, Raised lam lam1 payer [t] → (ts.map fun u => u.2 - lam1 u.1) = ts.map fun u => u.2 - lam u.1 := by
    intro lam1 h
    apply List.map_congr_left
    intro u hu
    rw [h.rest u.1 (hp' u hu).symm (by simpa using (hts u hu).symm)]
  constructor
  · rintro ⟨lam1, h1, h2⟩
    have hs := hsum lam1 h1
    have e1 := h1.paid
    have e2 := h2.paid
    rw [hs] at e2
    simp at e1
    refine ⟨by simp; omega, ?_, fun k hk hu => ?_⟩
    · intro u hu
      rcases List.mem_cons.1 hu with rfl | hu
      · rw [h2.rest u.1 hp.symm (fun v hv => hts v hv), h1.raised u (by simp)]
      · rw [h2.raised u hu, h1.rest u.1 (hp' u hu).symm (by simpa using (hts u hu).symm)]
    · rw [h2.rest k hk fun u h => hu u (List.mem_cons_of_mem _ h), h1.rest k hk (by simpa using hu t (by simp))]
  · intro h
    have e := h.paid
    simp at e
    refine ⟨upd (upd lam payer (lam payer - (t.2 - lam t.1))) t.1 (max (lam t.1) t.2), ?_, ?_⟩
    · refine ⟨by simp [upd_ne _ _ hp]; omega, by simp, fun k hk hu => ?_⟩
      have : k ≠ t.1 := fun h => hu t (by simp) h.symm
      rw [upd_ne _ _ this, upd_ne _ _ hk]
    · have hx : ∀ u ∈ ts, upd (upd lam payer (lam payer - (t.2 - lam t.1))) t.1 (max (lam t.1) t.2) u.1 = lam u.1 := by
        intro u hu
        rw [upd_ne _ _ (hts u hu), upd_ne _ _ (hp' u hu).symm]
      refine ⟨?_, ?_, fun k hk hu => ?_⟩
      · rw [List.map_congr_left (g := fun u => u.2 - lam u.1) (fun u hu => by rw [hx u hu]), upd_ne _ _ hp]; simp; omega
      · intro u hu
        rw [hx u hu, h.raised u (List.mem_cons_of_mem _ hu)]
      · by_cases h1 : k = t.1
        · subst h1; simp [h.raised t (by simp)]
        · rw [upd_ne _ _ h1, upd_ne _ _ hk, h.rest k hk]
          intro u hu'
          rcases List.mem_cons.1 hu' with rfl | hu'
          · exact fun h => h1 h.symm
          · exact hu u hu'

/-- A withdrawal of what exceeds `keep`. -/
theorem pay_refunded {lam lam' : Lam} {src refund : Pubkey} {keep : Nat} (hne : src ≠ refund) :
    pay lam src refund (lam src - keep) = .ok lam' ↔ Refunded lam lam' refund [(src, keep)] := by
  rw [pay_iff hne]
  constructor
  · rintro ⟨h1, rfl⟩
    refine ⟨by simp, by simp [upd_ne _ _ hne]; omega, fun k hk ht => ?_⟩
    have : k ≠ src := fun h => ht (src, keep) (by simp) h.symm
    rw [upd_ne _ _ hk, upd_ne _ _ this]
  · intro h
    have hp := h.refunded
    have hr := h.kept (src, keep) (by simp)
    simp at hp hr
    refine ⟨by omega, ?_⟩
    funext k
    by_cases h1 : k = refund
    · subst h1; simp [hp]
    · rw [upd_ne _ _ h1]
      by_cases h2 : k = src
      · subst h2; simp; omega
      · rw [upd_ne _ _ h2, h.rest k h1 (by simpa using fun h => h2 h.symm)]

theorem Refunded.cons {lam lam' : Lam} {refund : Pubkey} {t : Pubkey × Nat} {ts : List (Pubkey × Nat)} (hp : refund ≠ t.1) (hts : ∀ u ∈ ts, u.1 ≠ t.1)
    (hp' : ∀ u ∈ ts, refund ≠ u.1) :
    (∃ lam1, Refunded lam lam1 refund [t] ∧ Refunded lam1 lam' refund ts) ↔ Refunded lam lam' refund (t :: ts) := by
  constructor
  · rintro ⟨lam1, h1, h2⟩
    have hs : (ts.map fun u => lam1 u.1 - u.2) = ts.map fun u => lam u.1 - u.2 := by
      apply List.map_congr_left
      intro u hu
      rw [h1.rest u.1 (hp' u hu).symm (by simpa using (hts u hu).symm)]
    have e1 := h1.refunded
    have e2 := h2.refunded
    rw [hs] at e2
    simp at e1
    refine ⟨by simp; omega, ?_, fun k hk hu => ?_⟩
    · intro u hu
      rcases List.mem_cons.1 hu with rfl | hu
      · rw [h2.rest u.1 hp.symm (fun v hv => hts v hv), h1.kept u (by simp)]
      · rw [h2.kept u hu, h1.rest u.1 (hp' u hu).symm (by simpa using (hts u hu).symm)]
    · rw [h2.rest k hk fun u h => hu u (List.mem_cons_of_mem _ h), h1.rest k hk (by simpa using hu t (by simp))]
  · intro h
    have e := h.refunded
    simp at e
    refine ⟨upd (upd lam refund (lam refund + (lam t.1 - t.2))) t.1 (min (lam t.1) t.2), ?_, ?_⟩
    · refine ⟨by simp [upd_ne _ _ hp], by simp, fun k hk hu => ?_⟩
      have : k ≠ t.1 := fun h => hu t (by simp) h.symm
      rw [upd_ne _ _ this, upd_ne _ _ hk]
    · have hx : ∀ u ∈ ts, upd (upd lam refund (lam refund + (lam t.1 - t.2))) t.1 (min (lam t.1) t.2) u.1 = lam u.1 := by
        intro u hu
        rw [upd_ne _ _ (hts u hu), upd_ne _ _ (hp' u hu).symm]
      refine ⟨?_, ?_, fun k hk hu => ?_⟩
      · rw [List.map_congr_left (g := fun u => lam u.1 - u.2) (fun u hu => by rw [hx u hu]), upd_ne _ _ hp]; simp; omega
      · intro u hu
        rw [hx u hu, h.kept u (List.mem_cons_of_mem _ hu)]
      · by_cases h1 : k = t.1
        · subst h1; simp [h.kept t (by simp)]
        · rw [upd_ne _ _ h1, upd_ne _ _ hk, h.rest k hk]
          intro u hu'
          rcases List.mem_cons.1 hu' with rfl | hu'
          · exact fun h => h1 h.symm
          · exact hu u hu'

theorem shrinkLam_iff {r : Rent} {lam lam' : Lam} {list refund : Pubkey} {len : Nat} (hne : list ≠ refund) :
    shrinkLam r lam list refund len = .ok lam' ↔ Refunded lam lam' refund [(list, if len = 0 then 0 else r.min len)] := by
  unfold shrinkLam closeLam
  split
  · rw [← pay_refunded hne]; simp
  · split
    · exact pay_refunded hne
    · rw [← pay_refunded hne]
      rename_i h
      have : lam list - r.min len = 0 := by omega
      rw [this, pay_iff hne]
      constructor
      · intro h; cases h
        refine ⟨by omega, ?_⟩
        funext k
        by_cases h1 : k = refund
        · subst h1; simp
        · rw [upd_ne _ _ h1]
          by_cases h2 : k = list
          · subst h2; simp
          · rw [upd_ne _ _ h2]
      · rintro ⟨_, rfl⟩
        congr 1
        funext k
        by_cases h1 : k = refund
        · subst h1; simp
        · rw [upd_ne _ _ h1]
          by_cases h2 : k = list
          · subst h2; simp
          · rw [upd_ne _ _ h2]

section
variable {cfg : Cfg} {L : RatioLib} {env : Env cfg} {tx : TxInfo} {w w' : World} {accs : List Acc} {r : Rent} {lam lam' : Lam}

theorem addLst_lam (h : processIx cfg L env tx w accs .addLst = .ok w') : ∃ a m, AddLstAccs.load accs = .ok a ∧ a.payer.signer = true ∧
    w.led.mints a.lstMint.key = some m ∧ a.poolReserves.key = (cfg.findAta cfg.poolState m.program a.lstMint.key).1 ∧
    a.protocolFeeAccumulator.key = (cfg.findAta cfg.protocolFee m.program a.lstMint.key).1 ∧ a.lstStateList.key = cfg.lstStateList ∧
    a.lstTokenProgram.key = m.program := by
  simp only [processIx, processAddLst, bind_ok, require_ok, exists_const, checkKeys_ok, checkWritable_ok, checkSigner_ok,
    getPool_ok, mintProgram_ok, verifyActive_ok, List.forall_mem_cons, pure_ok] at h
  obtain ⟨a, hl, _, p, hp, _, ⟨m, hm, rfl⟩, ⟨k1, k2, k3, k4, k5, k6, _, _, k9, _⟩, _, ⟨_, hsig, _⟩, _⟩ := h
  exact ⟨a, m, hl, hsig, hm, k2, k3, k6, k9⟩

theorem removeLst_lam {i : Nat} (h : processIx cfg L env tx w accs (.removeLst i) = .ok w') : ∃ a m s, RemoveLstAccs.load accs = .ok a ∧
    w.led.mints a.lstMint.key = some m ∧ w.ctl.lsts[i]? = some s ∧ s.mint = a.lstMint.key ∧
    cfg.ata cfg.poolState m.program s.mint s.poolReservesBump = some a.poolReserves.key ∧
    cfg.ata cfg.protocolFee m.program s.mint s.protocolFeeAccumulatorBump = some a.protocolFeeAccumulator.key ∧ a.lstStateList.key = cfg.lstStateList := by
  simp only [processIx, processRemoveLst, bind_ok, require_ok, exists_const, checkKeys_ok, checkWritable_ok, checkSigner_ok,
    getPool_ok, matchLst_ok, mintProgram_ok, poolReserves_ok, feeAccumulator_ok, verifyActive_ok, tokenBalance_ok,
    List.forall_mem_cons, pure_ok] at h
  obtain ⟨a, hl, _, _, s, ⟨hs, hsm⟩, _, ⟨m, hm, rfl⟩, res, hres, acc, hacc, p, hp, ⟨k1, k2, k3, k4, k5, k6, k7, _⟩, _⟩ := h
  exact ⟨a, m, s, hl, hm, hs, hsm, k2 ▸ hres, k3 ▸ hacc, k6⟩

theorem addAuth_lam (h : processIx cfg L env tx w accs .addDisablePoolAuthority = .ok w') : ∃ a, AddAuthAccs.load accs = .ok a ∧ a.payer.signer = true ∧
    a.disablePoolAuthorityList.key = cfg.disablePoolAuthorityList := by
  simp only [processIx, processAddAuth, bind_ok, require_ok, exists_const, checkKeys_ok, checkWritable_ok, checkSigner_ok,
    getPool_ok, List.forall_mem_cons, pure_ok] at h
  obtain ⟨a, hl, _, p, hp, ⟨_, _, k3, _⟩, _, ⟨hs, _⟩, _⟩ := h
  exact ⟨a, hl, hs, k3⟩

theorem removeAuth_lam {i : Nat} (h : processIx cfg L env tx w accs (.removeDisablePoolAuthority i) = .ok w') : ∃ a, RemoveAuthAccs.load accs = .ok a ∧
    a.disablePoolAuthorityList.key = cfg.disablePoolAuthorityList := by
  simp only [processIx, processRemoveAuth, bind_ok, require_ok, exists_const] at h
  obtain ⟨a, hl, _, k, _⟩ := h
  exact ⟨a, hl, k⟩

theorem initialize_lam (h : processIx cfg L env tx w accs .initialize = .ok w') : ∃ a, InitializeAccs.load accs = .ok a ∧ a.payer.signer = true ∧
    a.poolState.key = cfg.poolState := by
  simp only [processIx, processInitialize, bind_ok, require_ok, exists_const, checkKeys_ok, checkWritable_ok, checkSigner_ok,
    List.forall_mem_cons] at h
  obtain ⟨a, hl, ⟨_, k2, _⟩, _, ⟨hs, _⟩, _⟩ := h
  exact ⟨a, hl, hs, k2⟩

theorem start_lam {args : StartRebalanceArgs} (h : processIx cfg L env tx w accs (.startRebalance args) = .ok w') : ∃ a rest,
    StartRebAccs.load accs = .ok (a, rest) ∧ a.poolState.key = cfg.poolState ∧ a.rebalanceRecord.key = cfg.rebalanceRecord := by
  simp only [processIx, processStartRebalance, verifyStartRebalance, bind_ok, Prod.exists, require_ok, exists_const, checkKeys_ok,
    checkWritable_ok, checkSigner_ok, getPool_ok, matchLst_ok, mintProgram_ok, poolReserves_ok, verifyActive_ok,
    verifyInputEnabled_ok, tokenBalance_ok, syncUnchecked_ok, totalSolValue_ok, List.forall_mem_cons, pure_ok] at h
  obtain ⟨a, suffix, hl, c, ⟨_, _, src, ⟨hs, hsm⟩, srcTp, hsp, srcRes, hsr, dst, ⟨hd, hdm⟩, dstTp, hdp, dstRes, hdr, p,
    hp, ⟨k1, k2, k3, k4, _⟩, _⟩, _⟩ := h
  exact ⟨a, suffix, hl, k2, k4⟩

theorem end_lam (h : processIx cfg L env tx w accs .endRebalance = .ok w') : ∃ a rest,
    EndRebAccs.load accs = .ok (a, rest) ∧ a.poolState.key = cfg.poolState ∧ a.rebalanceRecord.key = cfg.rebalanceRecord := by
  simp only [processIx, processEndRebalance, bind_ok, Prod.exists, require_ok, exists_const] at h
  obtain ⟨a, suffix, hl, k1, _, k3, _⟩ := h
  exact ⟨a, suffix, hl, k1, k3⟩

theorem AddLstAccs.load_lam {a : AddLstAccs} (h : AddLstAccs.load accs = .ok a) : a.payer ∈ accs ∧ a.poolReserves ∈ accs ∧ a.protocolFeeAccumulator ∈ accs ∧
    a.lstStateList ∈ accs ∧ accs[1]? = some a.payer ∧ accs[2]? = some a.lstMint := by
  unfold AddLstAccs.load at h; split at h
  · cases h; simp
  · cases h

theorem RemoveLstAccs.load_lam {a : RemoveLstAccs} (h : RemoveLstAccs.load accs = .ok a) : a.refundRentTo ∈ accs ∧ a.poolReserves ∈ accs ∧
    a.protocolFeeAccumulator ∈ accs ∧ a.lstStateList ∈ accs ∧ accs[1]? = some a.refundRentTo := by
  unfold RemoveLstAccs.load at h; split at h
  · cases h; simp
  · cases h

theorem AddAuthAccs.load_lam {a : AddAuthAccs} (h : AddAuthAccs.load accs = .ok a) : a.payer ∈ accs ∧ a.disablePoolAuthorityList ∈ accs ∧
    accs[0]? = some a.payer := by
  unfold AddAuthAccs.load at h; split at h
  · cases h; simp
  · cases h

theorem RemoveAuthAccs.load_lam {a : RemoveAuthAccs} (h : RemoveAuthAccs.load accs = .ok a) : a.refundRentTo ∈ accs ∧ a.disablePoolAuthorityList ∈ accs ∧
    accs[0]? = some a.refundRentTo := by
  unfold RemoveAuthAccs.load at h; split at h
  · cases h; simp
  · cases h

theorem InitializeAccs.load_lam {a : InitializeAccs} (h : InitializeAccs.load accs = .ok a) : a.payer ∈ accs ∧ a.poolState ∈ accs ∧
    accs[0]? = some a.payer := by
  unfold InitializeAccs.load at h; split at h
  · cases h; simp
  · cases h

theorem StartRebAccs.load_lam {a : StartRebAccs} {rest : List Acc} (h : StartRebAccs.load accs = .ok (a, rest)) : a.poolState ∈ accs ∧ a.rebalanceRecord ∈ accs := by
  unfold StartRebAccs.load at h; split at h
  · cases h; simp
  · cases h

theorem EndRebAccs.load_lam {a : EndRebAccs} {rest : List Acc} (h : EndRebAccs.load accs = .ok (a, rest)) : a.poolState ∈ accs ∧ a.rebalanceRecord ∈ accs := by
  unfold EndRebAccs.load at h; split at h
  · cases h; simp
  · cases h

/-- C62, AddLst: the payer pays exactly what the two token accounts, if created, and the list, one entry longer, are short of; nothing else moves. -/
theorem C62_addLst (hap : cfg.Apart) (hsig : RealSigners cfg accs) (h : processIx cfg L env tx w accs .addLst = .ok w') :
    ∃ payer mint m, accs[1]? = some payer ∧ accs[2]? = some mint ∧ w.led.mints mint.key = some m ∧
      let res := (cfg.findAta cfg.poolState m.program mint.key).1
      let acc := (cfg.findAta cfg.protocolFee m.program mint.key).1
      let rent := r.token m.program mint.key
      (lamIx r w accs lam .addLst = .ok lam' ↔ Raised lam lam' payer.key
        ((if w.led.tok res = none then [(res, rent)] else []) ++ (if w.led.tok acc = none then [(acc, rent)] else []) ++
          [(cfg.lstStateList, r.min ((w.ctl.lsts.length + 1) * 80))])) := by
  obtain ⟨a, m, hl, hs, hm, k1, k2, k3, k4⟩ := addLst_lam h
  obtain ⟨m1, m2, m3, m4, m5, m6⟩ := AddLstAccs.load_lam hl
  refine ⟨a.payer, a.lstMint, m, m5, m6, hm, ?_⟩
  intro res acc rent
  obtain ⟨ho, hat⟩ := hsig _ m1 hs
  have n1 : a.payer.key ≠ res := fun e => hat _ _ _ _ (by rw [cfg.findAta_ata, e])
  have n2 : a.payer.key ≠ acc := fun e => hat _ _ _ _ (by rw [cfg.findAta_ata, e])
  have n3 : a.payer.key ≠ cfg.lstStateList := fun e => ho (by simp [Cfg.owned, e])
  have n4 : acc ≠ res := fun e => cfg.pool_ne_fee
    (cfg.ata_inj (cfg.findAta_ata cfg.poolState m.program a.lstMint.key) (by rw [cfg.findAta_ata]; exact congrArg some e)).1
  have n5 : cfg.lstStateList ≠ res := fun e => hap.ata _ _ _ _ _ (cfg.findAta_ata cfg.poolState m.program a.lstMint.key) (by simp [Cfg.owned, e, res])
  have n6 : cfg.lstStateList ≠ acc := fun e => hap.ata _ _ _ _ _ (cfg.findAta_ata cfg.protocolFee m.program a.lstMint.key) (by simp [Cfg.owned, e, acc])
  have e1 : ∀ l l', topUpAta r w.led l a.payer.key res m.program a.lstMint.key = .ok l' ↔ Raised l l' a.payer.key (if w.led.tok res = none then [(res, rent)] else []) := by
    intro l l'
    unfold topUpAta
    split
    · exact topUp_iff n1
    · rw [Raised.nil]; simp [eq_comm]
  have e2 : ∀ l l', topUpAta r w.led l a.payer.key acc m.program a.lstMint.key = .ok l' ↔ Raised l l' a.payer.key (if w.led.tok acc = none then [(acc, rent)] else []) := by
    intro l l'
    unfold topUpAta
    split
    · exact topUp_iff n2
    · rw [Raised.nil]; simp [eq_comm]
  simp only [lamIx, bind_ok, hl, Except.ok.injEq, exists_eq_left', k1, k2, k3, k4, LST_STATE_SIZE]
  have e3 : ∀ l l', topUp l a.payer.key cfg.lstStateList (r.min ((w.ctl.lsts.length + 1) * 80)) = .ok l' ↔ _ := fun l l' => topUp_iff n3
  have e23 : ∀ l, (∃ l1, topUpAta r w.led l a.payer.key acc m.program a.lstMint.key = .ok l1 ∧
      topUp l1 a.payer.key cfg.lstStateList (r.min ((w.ctl.lsts.length + 1) * 80)) = .ok lam') ↔
      Raised l lam' a.payer.key ((if w.led.tok acc = none then [(acc, rent)] else []) ++ [(cfg.lstStateList, r.min ((w.ctl.lsts.length + 1) * 80))]) := by
    intro l
    simp only [e2, e3]
    split
    · exact Raised.cons n2 (by simpa using n6) (by simpa using n3)
    · simp [Raised.nil]
  simp only [res, acc, rent] at e1 e23 ⊢
  simp only [e1, e23, List.append_assoc]
  split
  · refine Raised.cons n1 ?_ ?_
    · intro u hu
      rcases List.mem_append.1 hu with hu | hu
      · split at hu <;> simp at hu
        rw [hu]; exact n4
      · simp at hu; rw [hu]; exact n5
    · intro u hu
      rcases List.mem_append.1 hu with hu | hu
      · split at hu <;> simp at hu
        rw [hu]; exact n2
      · simp at hu; rw [hu]; exact n3
  · simp [Raised.nil]

/-- C62, RemoveLst: all lamports of the two token accounts, and what the list, one entry shorter, has in excess of its rent — all it has if it is now
empty — go to the refund account. -/
theorem C62_removeLst {i : Nat} (hap : cfg.Apart) (h : processIx cfg L env tx w accs (.removeLst i) = .ok w') :
    ∃ refund res acc, accs[1]? = some refund ∧ accs[3]? = some res ∧ accs[4]? = some acc ∧
      (refund.key = res.key ∨ refund.key = acc.key → lamIx r w accs lam (.removeLst i) ≠ .ok lam') ∧
      (refund.key ≠ res.key → refund.key ≠ acc.key → refund.key ≠ cfg.lstStateList →
        (lamIx r w accs lam (.removeLst i) = .ok lam' ↔ Refunded lam lam' refund.key
          [(acc.key, 0), (res.key, 0), (cfg.lstStateList, if w'.ctl.lsts = [] then 0 else r.min (w'.ctl.lsts.length * 80))])) := by
  obtain ⟨a, m, s, hl, hm, hi, hsm, k1, k2, k3⟩ := removeLst_lam h
  obtain ⟨rr⟩ := processRemoveLst_inv h
  obtain ⟨m1, m2, m3, m4, m5⟩ := RemoveLstAccs.load_lam hl
  have m6 : accs[3]? = some a.poolReserves ∧ accs[4]? = some a.protocolFeeAccumulator := by
    unfold RemoveLstAccs.load at hl; split at hl
    · cases hl; simp
    · cases hl
  have hlen : w'.ctl.lsts.length = w.ctl.lsts.length - 1 := by
    rw [congrArg World.ctl rr.eq, List.length_eraseIdx_of_lt (List.getElem?_eq_some_iff.1 hi).1]
  have hnil : w'.ctl.lsts = [] ↔ (w.ctl.lsts.length - 1) * LST_STATE_SIZE = 0 := by
    rw [← List.length_eq_zero_iff, hlen]; unfold LST_STATE_SIZE; omega
  refine ⟨_, _, _, m5, m6.1, m6.2, ?_, ?_⟩
  · rintro hx hc
    simp only [lamIx, bind_ok, hl, Except.ok.injEq, exists_eq_left', closeTokenLam, require_ok, exists_const] at hc
    obtain ⟨l1, ⟨n1, _⟩, l2, ⟨n2, _⟩, _⟩ := hc
    rcases hx with hx | hx
    · exact n2 hx.symm
    · exact n1 hx.symm
  · intro n1 n2 n3
    have n4 : a.poolReserves.key ≠ a.protocolFeeAccumulator.key := fun e => cfg.pool_ne_fee (cfg.ata_inj k1 (e ▸ k2)).1
    have n5 : cfg.lstStateList ≠ a.poolReserves.key := fun e => hap.ata _ _ _ _ _ k1 (by simp [Cfg.owned, e])
    have n6 : cfg.lstStateList ≠ a.protocolFeeAccumulator.key := fun e => hap.ata _ _ _ _ _ k2 (by simp [Cfg.owned, e])
    have e1 : ∀ l l', closeLam l a.protocolFeeAccumulator.key a.refundRentTo.key = .ok l' ↔ Refunded l l' a.refundRentTo.key [(a.protocolFeeAccumulator.key, 0)] := by
      intro l l'; rw [← pay_refunded n2.symm]; simp [closeLam]
    have e2 : ∀ l l', closeLam l a.poolReserves.key a.refundRentTo.key = .ok l' ↔ Refunded l l' a.refundRentTo.key [(a.poolReserves.key, 0)] := by
      intro l l'; rw [← pay_refunded n1.symm]; simp [closeLam]
    have e3 : ∀ l l', shrinkLam r l cfg.lstStateList a.refundRentTo.key ((w.ctl.lsts.length - 1) * LST_STATE_SIZE) = .ok l' ↔ Refunded l l' a.refundRentTo.key
        [(cfg.lstStateList, if w'.ctl.lsts = [] then 0 else r.min (w'.ctl.lsts.length * 80))] := by
      intro l l'
      have : (if (w.ctl.lsts.length - 1) * LST_STATE_SIZE = 0 then 0 else r.min ((w.ctl.lsts.length - 1) * LST_STATE_SIZE)) =
          if w'.ctl.lsts = [] then 0 else r.min (w'.ctl.lsts.length * 80) := by
        by_cases hz : w'.ctl.lsts = []
        · rw [if_pos hz, if_pos (hnil.1 hz)]
        · rw [if_neg hz, if_neg (fun h => hz (hnil.2 h)), hlen, LST_STATE_SIZE]
      rw [shrinkLam_iff n3.symm, this]
    simp only [lamIx, bind_ok, hl, Except.ok.injEq, exists_eq_left', closeTokenLam, require_ok, exists_const, k3, e1, e2, e3, ne_eq, n1.symm, n2.symm,
      not_false_eq_true, true_and]
    have e23 : ∀ l, (∃ l1, Refunded l l1 a.refundRentTo.key [(a.poolReserves.key, 0)] ∧ Refunded l1 lam' a.refundRentTo.key
        [(cfg.lstStateList, if w'.ctl.lsts = [] then 0 else r.min (w'.ctl.lsts.length * 80))]) ↔ _ := fun l =>
      Refunded.cons (t := (a.poolReserves.key, 0)) n1 (by simpa using n5) (by simpa using n3)
    simp only [e23]
    exact Refunded.cons (t := (a.protocolFeeAccumulator.key, 0)) n2 (by simpa using ⟨n4, n6⟩) (by simpa using ⟨n1, n3⟩)

/-- C62, AddDisablePoolAuthority: the payer pays exactly what the list, one entry longer, is short of. -/
theorem C62_addAuth (hsig : RealSigners cfg accs) (h : processIx cfg L env tx w accs .addDisablePoolAuthority = .ok w') :
    ∃ payer, accs[0]? = some payer ∧ (lamIx r w accs lam .addDisablePoolAuthority = .ok lam' ↔
      Raised lam lam' payer.key [(cfg.disablePoolAuthorityList, r.min ((w.ctl.auths.length + 1) * 32))]) := by
  obtain ⟨a, hl, hs, k⟩ := addAuth_lam h
  obtain ⟨m1, m2, m3⟩ := AddAuthAccs.load_lam hl
  refine ⟨_, m3, ?_⟩
  simp only [lamIx, bind_ok, hl, Except.ok.injEq, exists_eq_left', k]
  exact topUp_iff fun e => (hsig _ m1 hs).1 (by simp [Cfg.owned, e])

/-- C62, RemoveDisablePoolAuthority: what the list, one entry shorter, has in excess of its rent — all it has if it is now empty — goes to the refund
account. -/
theorem C62_removeAuth {i : Nat} (h : processIx cfg L env tx w accs (.removeDisablePoolAuthority i) = .ok w') :
    ∃ refund, accs[0]? = some refund ∧ (refund.key ≠ cfg.disablePoolAuthorityList → (lamIx r w accs lam (.removeDisablePoolAuthority i) = .ok lam' ↔
      Refunded lam lam' refund.key [(cfg.disablePoolAuthorityList, if w'.ctl.auths = [] then 0 else r.min (w'.ctl.auths.length * 32))])) := by
  obtain ⟨a, hl, k⟩ := removeAuth_lam h
  obtain ⟨m1, m2, m3⟩ := RemoveAuthAccs.load_lam hl
  obtain ⟨p, x, _, hx, _, hc⟩ := processIx_ctl h
  have hlen : w'.ctl.auths.length = w.ctl.auths.length - 1 := by
    rw [hc, List.length_eraseIdx_of_lt (List.getElem?_eq_some_iff.1 hx).1]
  have hnil : w'.ctl.auths = [] ↔ (w.ctl.auths.length - 1) * 32 = 0 := by
    rw [← List.length_eq_zero_iff, hlen]; omega
  refine ⟨_, m3, fun n => ?_⟩
  simp only [lamIx, bind_ok, hl, Except.ok.injEq, exists_eq_left', k]
  have : (if (w.ctl.auths.length - 1) * 32 = 0 then 0 else r.min ((w.ctl.auths.length - 1) * 32)) =
      if w'.ctl.auths = [] then 0 else r.min (w'.ctl.auths.length * 32) := by
    by_cases hz : w'.ctl.auths = []
    · rw [if_pos hz, if_pos (hnil.1 hz)]
    · rw [if_neg hz, if_neg (fun h => hz (hnil.2 h)), hlen]
  rw [shrinkLam_iff n.symm, this]

/-- C62, Initialize: the payer pays exactly what the pool state is short of. -/
theorem C62_initialize (hsig : RealSigners cfg accs) (h : processIx cfg L env tx w accs .initialize = .ok w') :
    ∃ payer, accs[0]? = some payer ∧ (lamIx r w accs lam .initialize = .ok lam' ↔ Raised lam lam' payer.key [(cfg.poolState, r.min 176)]) := by
  obtain ⟨a, hl, hs, k⟩ := initialize_lam h
  obtain ⟨m1, m2, m3⟩ := InitializeAccs.load_lam hl
  refine ⟨_, m3, ?_⟩
  simp only [lamIx, bind_ok, hl, Except.ok.injEq, exists_eq_left', k, POOL_STATE_SIZE]
  exact topUp_iff fun e => (hsig _ m1 hs).1 (by simp [Cfg.owned, e])

/-- C62, rebalancing: StartRebalance moves one lamport from the pool state to the record, EndRebalance all of the record's lamports to the pool state. -/
theorem C62_rebalance (hap : cfg.Apart) :
    (∀ args, processIx cfg L env tx w accs (.startRebalance args) = .ok w' → (lamIx r w accs lam (.startRebalance args) = .ok lam' ↔
      1 ≤ lam cfg.poolState ∧ lam' cfg.poolState = lam cfg.poolState - 1 ∧ lam' cfg.rebalanceRecord = lam cfg.rebalanceRecord + 1 ∧
      ∀ k, k ≠ cfg.poolState → k ≠ cfg.rebalanceRecord → lam' k = lam k)) ∧
    (processIx cfg L env tx w accs .endRebalance = .ok w' → (lamIx r w accs lam .endRebalance = .ok lam' ↔
      Refunded lam lam' cfg.poolState [(cfg.rebalanceRecord, 0)])) := by
  have hne : cfg.rebalanceRecord ≠ cfg.poolState := by
    have h := hap.owned; simp only [Cfg.owned, List.nodup_cons, List.mem_cons, not_or] at h; exact fun e => h.1.2.2.1 e.symm
  constructor
  · intro args h
    obtain ⟨a, rest, hl, k1, k2⟩ := start_lam h
    simp only [lamIx, bind_ok, hl, Except.ok.injEq, exists_eq_left', k1, k2]
    rw [pay_iff hne.symm]
    constructor
    · rintro ⟨h1, rfl⟩
      exact ⟨h1, by rw [upd_ne _ _ hne.symm, upd_same], by simp, fun k h1 h2 => by rw [upd_ne _ _ h2, upd_ne _ _ h1]⟩
    · rintro ⟨h1, h2, h3, h4⟩
      refine ⟨h1, ?_⟩
      funext k
      by_cases e1 : k = cfg.rebalanceRecord
      · subst e1; simp [h3]
      · rw [upd_ne _ _ e1]
        by_cases e2 : k = cfg.poolState
        · subst e2; simp [h2]
        · rw [upd_ne _ _ e2, h4 k e2 e1]
  · intro h
    obtain ⟨a, rest, hl, k1, k2⟩ := end_lam h
    simp only [lamIx, bind_ok, hl, Except.ok.injEq, exists_eq_left', k1, k2]
    rw [← pay_refunded hne]; simp [closeLam]

/-- C62: the other instructions move no lamports. -/
theorem C62_others {ix : Ix} (h : ix ≠ .initialize ∧ ix ≠ .addLst ∧ (∀ i, ix ≠ .removeLst i) ∧ ix ≠ .addDisablePoolAuthority ∧
    (∀ i, ix ≠ .removeDisablePoolAuthority i) ∧ (∀ a, ix ≠ .startRebalance a) ∧ ix ≠ .endRebalance) : lamIx r w accs lam ix = .ok lam := by
  obtain ⟨h1, h2, h3, h4, h5, h6, h7⟩ := h
  cases ix <;> first | rfl | exact absurd rfl h1 | exact absurd rfl h2 | exact absurd rfl (h3 _) | exact absurd rfl h4 | exact absurd rfl (h5 _) |
    exact absurd rfl (h6 _) | exact absurd rfl h7

/-- A change within a set of accounts that keeps their sum. -/
def Conserves (F : Finset Pubkey) (lam lam' : Lam) : Prop := ∑ k ∈ F, lam' k = ∑ k ∈ F, lam k ∧ ∀ k, k ∉ F → lam' k = lam k

theorem Conserves.refl (F : Finset Pubkey) (lam : Lam) : Conserves F lam lam := ⟨rfl, fun _ _ => rfl⟩

theorem Conserves.trans {F : Finset Pubkey} {a b c : Lam} (h : Conserves F a b) (h' : Conserves F b c) : Conserves F a c :=
  ⟨h'.1.trans h.1, fun k hk => (h'.2 k hk).trans (h.2 k hk)⟩

theorem sum_upd {F : Finset Pubkey} {f : Lam} {k : Pubkey} (v : Nat) (hk : k ∈ F) : ∑ x ∈ F, upd f k v x + f k = ∑ x ∈ F, f x + v := by
  rw [← Finset.add_sum_erase F _ hk, ← Finset.add_sum_erase F f hk]
  have : ∑ x ∈ F.erase k, upd f k v x = ∑ x ∈ F.erase k, f x := Finset.sum_congr rfl fun x hx => upd_ne _ _ (Finset.ne_of_mem_erase hx)
  rw [this]; simp; omega

theorem pay_conserves {F : Finset Pubkey} {src dst : Pubkey} {n : Nat} (hs : src ∈ F) (hd : dst ∈ F) (h : pay lam src dst n = .ok lam') :
    Conserves F lam lam' := by
  rcases pay_any h with ⟨_, rfl⟩ | ⟨hne, hle, rfl⟩
  · exact .refl _ _
  · refine ⟨?_, fun k hk => ?_⟩
    · have h1 := sum_upd (f := upd lam src (lam src - n)) (lam dst + n) hd
      have h2 := sum_upd (f := lam) (lam src - n) hs
      rw [upd_ne _ _ hne.symm] at h1
      omega
    · rw [upd_ne _ _ (fun e : k = dst => hk (e ▸ hd)), upd_ne _ _ (fun e : k = src => hk (e ▸ hs))]

theorem topUp_conserves {F : Finset Pubkey} {src dst : Pubkey} {n : Nat} (hs : src ∈ F) (hd : dst ∈ F) (h : topUp lam src dst n = .ok lam') :
    Conserves F lam lam' := by
  unfold topUp at h; split at h
  · exact pay_conserves hs hd h
  · cases h; exact .refl _ _

theorem topUpAta_conserves {F : Finset Pubkey} {src dst tp mint : Pubkey} {l : Ledger} (hs : src ∈ F) (hd : dst ∈ F)
    (h : topUpAta r l lam src dst tp mint = .ok lam') : Conserves F lam lam' := by
  unfold topUpAta at h; split at h
  · exact topUp_conserves hs hd h
  · cases h; exact .refl _ _

theorem closeTokenLam_conserves {F : Finset Pubkey} {src dst : Pubkey} (hs : src ∈ F) (hd : dst ∈ F) (h : closeTokenLam lam src dst = .ok lam') :
    Conserves F lam lam' := by
  simp only [closeTokenLam, bind_ok, require_ok, exists_const] at h
  exact pay_conserves hs hd h.2

theorem shrinkLam_conserves {F : Finset Pubkey} {src dst : Pubkey} {n : Nat} (hs : src ∈ F) (hd : dst ∈ F) (h : shrinkLam r lam src dst n = .ok lam') :
    Conserves F lam lam' := by
  unfold shrinkLam at h; split at h
  · exact pay_conserves hs hd h
  · split at h
    · exact pay_conserves hs hd h
    · cases h; exact .refl _ _

/-- C62: an instruction creates and destroys no lamports, and moves only those of its accounts. -/
theorem C62_conserves {ix : Ix} (h : lamIx r w accs lam ix = .ok lam') : Conserves (accs.map Acc.key).toFinset lam lam' := by
  have hF : ∀ {a : Acc}, a ∈ accs → a.key ∈ (accs.map Acc.key).toFinset := fun ha => List.mem_toFinset.2 (List.mem_map_of_mem ha)
  cases ix with
  | «initialize» =>
    simp only [lamIx, bind_ok] at h
    obtain ⟨a, hl, h⟩ := h
    obtain ⟨m1, m2, _⟩ := InitializeAccs.load_lam hl
    exact topUp_conserves (hF m1) (hF m2) h
  | addLst =>
    simp only [lamIx, bind_ok] at h
    obtain ⟨a, hl, l1, h1, l2, h2, h⟩ := h
    obtain ⟨m1, m2, m3, m4, _⟩ := AddLstAccs.load_lam hl
    exact ((topUpAta_conserves (hF m1) (hF m2) h1).trans (topUpAta_conserves (hF m1) (hF m3) h2)).trans (topUp_conserves (hF m1) (hF m4) h)
  | removeLst i =>
    simp only [lamIx, bind_ok] at h
    obtain ⟨a, hl, l1, h1, l2, h2, h⟩ := h
    obtain ⟨m1, m2, m3, m4, _⟩ := RemoveLstAccs.load_lam hl
    exact ((closeTokenLam_conserves (hF m3) (hF m1) h1).trans (closeTokenLam_conserves (hF m2) (hF m1) h2)).trans (shrinkLam_conserves (hF m4) (hF m1) h)
  | addDisablePoolAuthority =>
    simp only [lamIx, bind_ok] at h
    obtain ⟨a, hl, h⟩ := h
    obtain ⟨m1, m2, _⟩ := AddAuthAccs.load_lam hl
    exact topUp_conserves (hF m1) (hF m2) h
  | removeDisablePoolAuthority i =>
    simp only [lamIx, bind_ok] at h
    obtain ⟨a, hl, h⟩ := h
    obtain ⟨m1, m2, _⟩ := RemoveAuthAccs.load_lam hl
    exact shrinkLam_conserves (hF m2) (hF m1) h
  | startRebalance args =>
    simp only [lamIx, bind_ok, Prod.exists] at h
    obtain ⟨a, rest, hl, h⟩ := h
    obtain ⟨m1, m2⟩ := StartRebAccs.load_lam hl
    exact pay_conserves (hF m1) (hF m2) h
  | endRebalance =>
    simp only [lamIx, bind_ok, Prod.exists] at h
    obtain ⟨a, rest, hl, h⟩ := h
    obtain ⟨m1, m2⟩ := EndRebAccs.load_lam hl
    exact pay_conserves (hF m2) (hF m1) h
  | _ => cases h; exact .refl _ _

/-! #### The invariant -/

/-- What the requirement depends on. -/
def Ctl.shape (c : Ctl) : Bool × Nat × Nat × Bool := (c.pool.isSome, c.lsts.length, c.auths.length, c.rebal.isSome)

theorem RentExempt.of_shape {c c' : Ctl} (h : RentExempt cfg r c lam) (hs : c'.shape = c.shape) (hc : Credits cfg lam lam') : RentExempt cfg r c' lam' := by
  simp only [Ctl.shape, Prod.mk.injEq] at hs
  obtain ⟨e1, e2, e3, e4⟩ := hs
  have g1 := hc cfg.poolState (by simp [Cfg.owned])
  have g2 := hc cfg.lstStateList (by simp [Cfg.owned])
  have g3 := hc cfg.disablePoolAuthorityList (by simp [Cfg.owned])
  have g4 := hc cfg.rebalanceRecord (by simp [Cfg.owned])
  have hreb : c'.rebal = none ↔ c.rebal = none := by
    cases h1 : c.rebal <;> cases h2 : c'.rebal <;> simp_all
  refine ⟨fun p hp => ?_, fun hl => ?_, fun hl => ?_, fun hl => ?_⟩
  · rw [hp] at e1
    cases hq : c.pool with
    | none => rw [hq] at e1; cases e1
    | some q =>
      have := h.pool q hq
      simp only [hreb]
      omega
  · have := h.lsts (fun hn => by rw [hn] at e2; exact hl (List.length_eq_zero_iff.1 e2))
    rw [e2]; omega
  · have := h.auths (fun hn => by rw [hn] at e3; exact hl (List.length_eq_zero_iff.1 e3))
    rw [e3]; omega
  · have := h.rebal (fun hn => hl (hreb.2 hn))
    omega

theorem Syncs.shape {c c' : Ctl} (h : Syncs c c') : c'.shape = c.shape := by
  have o := h.onlyValues
  have e2 : c'.lsts.length = c.lsts.length := by simpa using congrArg List.length o.lsts
  simp only [Ctl.shape, Prod.mk.injEq, e2, o.auths, o.rebal, and_self, and_true]
  cases hp : c.pool with
  | none => rw [o.poolNone hp]
  | some p => obtain ⟨t, ht⟩ := o.pool p hp; rw [ht]; rfl

theorem credits_refl (lam : Lam) : Credits cfg lam lam := fun _ _ => le_rfl

theorem Credits.trans {a b c : Lam} (h : Credits cfg a b) (h' : Credits cfg b c) : Credits cfg a c := fun k hk => (h k hk).trans (h' k hk)

theorem topUp_credits {payer acc : Pubkey} {n : Nat} (hp : payer ∉ cfg.owned) (h : topUp lam payer acc n = .ok lam') :
    Credits cfg lam lam' ∧ (payer ≠ acc → n ≤ lam' acc) := by
  refine ⟨fun k hk => topUp_others h fun e => hp (e ▸ hk), fun hne => ?_⟩
  have := ((topUp_iff hne).1 h).raised (acc, n) (by simp)
  simp only at this
  omega

theorem topUpAta_credits {payer acc tp mint : Pubkey} {l : Ledger} (hp : payer ∉ cfg.owned) (h : topUpAta r l lam payer acc tp mint = .ok lam') :
    Credits cfg lam lam' := by
  unfold topUpAta at h; split at h
  · exact (topUp_credits hp h).1
  · cases h; exact credits_refl _

theorem pay_credits {src dst : Pubkey} {n : Nat} (hp : src ∉ cfg.owned) (h : pay lam src dst n = .ok lam') : Credits cfg lam lam' :=
  fun _ hk => pay_others h fun e => hp (e ▸ hk)

/-- Shrinking leaves the list what it needs and takes from nobody else. -/
theorem shrink_credits {list refund : Pubkey} {len : Nat} (h : shrinkLam r lam list refund len = .ok lam') :
    (∀ k, k ≠ list → lam k ≤ lam' k) ∧ (len ≠ 0 → r.min len ≤ lam list → r.min len ≤ lam' list) := by
  unfold shrinkLam closeLam at h
  split at h
  · exact ⟨fun k hk => pay_others h hk, fun h => absurd ‹_› h⟩
  · split at h
    · refine ⟨fun k hk => pay_others h hk, fun _ hle => ?_⟩
      rcases pay_any h with ⟨_, rfl⟩ | ⟨hne, _, rfl⟩
      · exact hle
      · rw [upd_ne _ _ hne, upd_same]; omega
    · cases h; exact ⟨fun _ _ => le_rfl, fun _ h => h⟩

theorem RentExempt.ix {ix : Ix} (hap : cfg.Apart) (hs : ∀ a ∈ accs, a.signer = true → a.key ∉ cfg.owned)
    (h : processIx cfg L env tx w accs ix = .ok w') (hi : CtlInv w.ctl) (hr : RentExempt cfg r w.ctl lam) (hm : lamIx r w accs lam ix = .ok lam') :
    RentExempt cfg r w'.ctl lam' := by
  have hd := hap.owned
  simp only [Cfg.owned, List.nodup_cons, List.mem_cons, not_or, List.not_mem_nil, not_false_eq_true, and_true, List.nodup_nil] at hd
  obtain ⟨⟨d1, d2, d3⟩, ⟨d4, d5⟩, d6⟩ := hd
  have hc := processIx_ctl h
  have o1 : cfg.poolState ∈ cfg.owned := by simp [Cfg.owned]
  have o2 : cfg.lstStateList ∈ cfg.owned := by simp [Cfg.owned]
  have o3 : cfg.disablePoolAuthorityList ∈ cfg.owned := by simp [Cfg.owned]
  have o4 : cfg.rebalanceRecord ∈ cfg.owned := by simp [Cfg.owned]
  by_cases hx : ix ≠ .initialize ∧ ix ≠ .addLst ∧ (∀ i, ix ≠ .removeLst i) ∧ ix ≠ .addDisablePoolAuthority ∧
      (∀ i, ix ≠ .removeDisablePoolAuthority i) ∧ (∀ a, ix ≠ .startRebalance a) ∧ ix ≠ .endRebalance
  · rw [C62_others hx] at hm
    cases hm
    refine hr.of_shape ?_ (credits_refl _)
    obtain ⟨h1, h2, h3, h4, h5, h6, h7⟩ := hx
    cases ix with
    | syncSolValue i => obtain ⟨p, _, hs⟩ := hc; exact hs.shape
    | swapExactIn a => obtain ⟨p, s, _, _, _, hs⟩ := hc; exact hs.shape
    | swapExactOut a => obtain ⟨p, s, _, _, _, hs⟩ := hc; exact hs.shape
    | addLiquidity a => obtain ⟨p, s, _, _, _, hs⟩ := hc; exact hs.shape
    | removeLiquidity a => obtain ⟨p, _, hs⟩ := hc; exact hs.shape
    | disableLstInput i => obtain ⟨p, s, _, _, _, hs⟩ := hc; rw [hs]; simp [Ctl.shape]
    | enableLstInput i => obtain ⟨p, s, _, _, _, hs⟩ := hc; rw [hs]; simp [Ctl.shape]
    | addLst => exact absurd rfl h2
    | removeLst i => exact absurd rfl (h3 i)
    | setSolValueCalculator i => obtain ⟨p, s, _, _, _, _, _, hs⟩ := hc; rw [hs.shape]; simp [Ctl.shape]
    | setAdmin => obtain ⟨p, k, hp, _, hs⟩ := hc; rw [hs]; simp [Ctl.shape, hp]
    | setProtocolFee a => obtain ⟨p, hp, _, _, _, hs⟩ := hc; rw [hs]; simp [Ctl.shape, hp.1]
    | setProtocolFeeBeneficiary => obtain ⟨p, k, hp, _, hs⟩ := hc; rw [hs]; simp [Ctl.shape, hp.1]
    | setPricingProgram => obtain ⟨p, k, hp, _, _, hs⟩ := hc; rw [hs]; simp [Ctl.shape, hp.1]
    | withdrawProtocolFees n => obtain ⟨p, hp, _, hs⟩ := hc; rw [hs]
    | addDisablePoolAuthority => exact absurd rfl h4
    | removeDisablePoolAuthority i => exact absurd rfl (h5 i)
    | disablePool => obtain ⟨p, hp, _, hs⟩ := hc; rw [hs]; simp [Ctl.shape, hp.1]
    | enablePool => obtain ⟨p, hp, _, _, hs⟩ := hc; rw [hs]; simp [Ctl.shape, hp]
    | startRebalance a => exact absurd rfl (h6 a)
    | endRebalance => exact absurd rfl h7
    | setRebalanceAuthority => obtain ⟨p, k, hp, _, hs⟩ := hc; rw [hs]; simp [Ctl.shape, hp.1]
    | «initialize» => exact absurd rfl h1
  · cases ix with
    | «initialize» =>
      obtain ⟨a, hl, hsg, k⟩ := initialize_lam h
      obtain ⟨m1, m2, _⟩ := InitializeAccs.load_lam hl
      simp only [lamIx, bind_ok, hl, Except.ok.injEq, exists_eq_left', k, POOL_STATE_SIZE] at hm
      have hno := hs _ m1 hsg
      obtain ⟨g1, g2⟩ := topUp_credits hno hm
      obtain ⟨_, hp, _, hcc⟩ := hc
      obtain ⟨e1, e2, e3⟩ := hi.noPool hp
      rw [hcc]
      exact ⟨fun p _ => by simp [e3]; exact g2 fun e => hno (e ▸ o1), fun h => absurd e1 h, fun h => absurd e2 h, fun h => absurd e3 h⟩
    | addLst =>
      obtain ⟨a, m, hl, hsg, _, _, _, k, _⟩ := addLst_lam h
      obtain ⟨m1, _⟩ := AddLstAccs.load_lam hl
      have hno := hs _ m1 hsg
      simp only [lamIx, bind_ok, hl, Except.ok.injEq, exists_eq_left', k, LST_STATE_SIZE] at hm
      obtain ⟨l1, h1, l2, h2, h3⟩ := hm
      obtain ⟨g1, g2⟩ := topUp_credits hno h3
      have g := ((topUpAta_credits hno h1).trans (topUpAta_credits hno h2)).trans g1
      obtain ⟨p, s, _, _, _, _, _, _, _, _, hcc⟩ := hc
      have q := hr.of_shape rfl g
      rw [hcc]
      exact ⟨q.pool, fun _ => by simpa using g2 fun e => hno (e ▸ o2), q.auths, q.rebal⟩
    | removeLst i =>
      obtain ⟨a, m, s, hl, hm', hi', hsm, k1, k2, k3⟩ := removeLst_lam h
      simp only [lamIx, bind_ok, hl, Except.ok.injEq, exists_eq_left', k3, closeTokenLam, require_ok, exists_const] at hm
      obtain ⟨l1, ⟨_, h1⟩, l2, ⟨_, h2⟩, h3⟩ := hm
      have g := (pay_credits (hap.ata _ _ _ _ _ k2) h1).trans (pay_credits (hap.ata _ _ _ _ _ k1) h2)
      obtain ⟨g1, g2⟩ := shrink_credits h3
      obtain ⟨p, s', _, _, hs', _, hcc⟩ := hc
      have hlt := (List.getElem?_eq_some_iff.1 hs').1
      have q := hr.of_shape rfl g
      rw [hcc]
      refine ⟨fun p hp => (q.pool p hp).trans (Nat.add_le_add_right (g1 _ d1) _), fun hne => ?_, fun hne => (q.auths hne).trans (g1 _ (Ne.symm d4)),
        fun hne => (q.rebal hne).trans (g1 _ (Ne.symm d5))⟩
      have hne' : (w.ctl.lsts.eraseIdx i).length ≠ 0 := fun e => hne (List.length_eq_zero_iff.1 e)
      simp only [List.length_eraseIdx_of_lt hlt] at hne' ⊢
      refine g2 (by unfold LST_STATE_SIZE; omega) ?_
      refine (r.mono ?_).trans (q.lsts (fun e => by rw [e] at hlt; simp at hlt))
      unfold LST_STATE_SIZE; omega
    | addDisablePoolAuthority =>
      obtain ⟨a, hl, hsg, k⟩ := addAuth_lam h
      obtain ⟨m1, _⟩ := AddAuthAccs.load_lam hl
      have hno := hs _ m1 hsg
      simp only [lamIx, bind_ok, hl, Except.ok.injEq, exists_eq_left', k] at hm
      obtain ⟨g1, g2⟩ := topUp_credits hno hm
      obtain ⟨p, s, _, _, _, hcc⟩ := hc
      have q := hr.of_shape rfl g1
      rw [hcc]
      exact ⟨q.pool, q.lsts, fun _ => by simpa using g2 fun e => hno (e ▸ o3), q.rebal⟩
    | removeDisablePoolAuthority i =>
      obtain ⟨a, hl, k⟩ := removeAuth_lam h
      simp only [lamIx, bind_ok, hl, Except.ok.injEq, exists_eq_left', k] at hm
      obtain ⟨g1, g2⟩ := shrink_credits hm
      obtain ⟨p, s', _, hs', _, hcc⟩ := hc
      have hlt := (List.getElem?_eq_some_iff.1 hs').1
      rw [hcc]
      refine ⟨fun p hp => (hr.pool p hp).trans (Nat.add_le_add_right (g1 _ d2) _), fun hne => (hr.lsts hne).trans (g1 _ d4), fun hne => ?_,
        fun hne => (hr.rebal hne).trans (g1 _ (Ne.symm d6))⟩
      have hne' : (w.ctl.auths.eraseIdx i).length ≠ 0 := fun e => hne (List.length_eq_zero_iff.1 e)
      simp only [List.length_eraseIdx_of_lt hlt] at hne' ⊢
      refine g2 (by omega) ?_
      exact (r.mono (by omega)).trans (hr.auths (fun e => by rw [e] at hlt; simp at hlt))
    | startRebalance args =>
      obtain ⟨b1, b2, b3, b4⟩ := ((C62_rebalance hap (L := L) (lam := lam) (lam' := lam') (r := r)).1 args h).1 hm
      obtain ⟨p, s, c2, c3, p2, p3, _, hact, _, _, _, _, _, s1, hp2, s2, hp3, hn, hcc⟩ := hc
      have q := hr.of_shape (s1.trans s2).shape (credits_refl lam)
      rw [hcc]
      refine ⟨fun p hp => ?_, fun hne => ?_, fun hne => ?_, fun _ => ?_⟩
      · have := q.pool p3 hp3
        simp only [hn, if_true, reduceCtorEq, if_false] at this ⊢
        omega
      · rw [b4 _ (Ne.symm d1) d5]; exact q.lsts hne
      · rw [b4 _ (Ne.symm d2) d6]; exact q.auths hne
      · rw [b3]; omega
    | endRebalance =>
      have b := ((C62_rebalance hap (L := L) (lam := lam) (lam' := lam') (r := r)).2 h).1 hm
      obtain ⟨p, rr, c1, p1, hp, hreb, hrr, _, s1, hp1, _, hcc⟩ := hc
      have e1 := b.refunded
      simp at e1
      have hsh := s1.shape
      have q : RentExempt cfg r c1 lam := hr.of_shape (by rw [hsh]; simp [Ctl.shape, hp]) (credits_refl lam)
      have hc1 : c1.rebal = some rr := by rw [s1.onlyValues.rebal]; exact hrr
      rw [hcc]
      refine ⟨fun p' hp' => ?_, fun hne => ?_, fun hne => ?_, fun h => absurd rfl h⟩
      · have h1 := q.pool p1 hp1
        have h2 := q.rebal (by rw [hc1]; simp)
        simp only [hc1, if_true, reduceCtorEq, if_false] at h1 ⊢
        omega
      · rw [b.rest _ (Ne.symm d1) (by simpa using fun e => d5 e.symm)]; exact q.lsts hne
      · rw [b.rest _ (Ne.symm d2) (by simpa using fun e => d6 e.symm)]; exact q.auths hne
    | _ => exact absurd ⟨by simp, by simp, by simp, by simp, by simp, by simp, by simp⟩ hx

theorem LamRun.exempt (hap : cfg.Apart) {es : List (Event cfg)} {w w' : World} {lam lam' : Lam} (hrun : LamRun r es lam lam') (hc : Chain w es w')
    (hr : ∀ e ∈ es, e.act.run L e.tx e.pre = .ok e.post) (hi : ∀ e ∈ es, CtlInv e.pre.ctl) (h : RentExempt cfg r w.ctl lam) :
    RentExempt cfg r w'.ctl lam' := by
  induction hrun generalizing w with
  | nil => cases hc; exact h
  | ext he h1 _ ih =>
    cases hc with
    | cons hc =>
      refine ih hc (fun e' hm => hr e' (List.mem_cons_of_mem _ hm)) (fun e' hm => hi e' (List.mem_cons_of_mem _ hm)) ?_
      have := hr _ (List.mem_cons_self ..)
      rw [he] at this
      simp only [Action.run, Except.ok.injEq] at this
      rw [← this]
      exact h.of_shape rfl h1
  | call he hd hs h1 hm _ ih =>
    cases hc with
    | cons hc =>
      refine ih hc (fun e' hm => hr e' (List.mem_cons_of_mem _ hm)) (fun e' hm => hi e' (List.mem_cons_of_mem _ hm)) ?_
      have hx := hr _ (List.mem_cons_self ..)
      rw [he] at hx
      simp only [Action.run, Call.run, bind_ok, require_ok, exists_const] at hx
      rw [processInstruction_of_decode _ _ _ _ _ hd] at hx
      exact (h.of_shape rfl h1).ix hap hs hx.2 (hi _ (List.mem_cons_self ..)) hm

/-- C62: after any history of transactions, the pool state, the LST list and the list of disable authorities, as far as they exist, are rent-exempt. -/
theorem C62_exempt (hap : cfg.Apart) {w₀ : World} (hf : World.Fresh cfg w₀) (h : List (Tx cfg)) (hrun : LamRun r (historyEvents L w₀ h) lam lam') :
    let c := (runHistory L w₀ h).ctl
    (c.pool ≠ none → r.min 176 ≤ lam' cfg.poolState) ∧
    (c.lsts ≠ [] → r.min (c.lsts.length * 80) ≤ lam' cfg.lstStateList) ∧
    (c.auths ≠ [] → r.min (c.auths.length * 32) ≤ lam' cfg.disablePoolAuthorityList) := by
  intro c
  obtain ⟨hc, hr⟩ := historyEvents_chain L w₀ h
  have hi := history_inv (L := L) hf h
  have := hrun.exempt hap hc hr (fun e he => (hi.1 e he).1.ctl) (by rw [hf.ctl]; exact ⟨by simp [Ctl.init], by simp [Ctl.init], by simp [Ctl.init], by simp [Ctl.init]⟩)
  refine ⟨fun hp => ?_, this.lsts, this.auths⟩
  obtain ⟨p, hp⟩ := Option.ne_none_iff_exists'.1 hp
  have := this.pool p hp
  rwa [if_pos (C02_never_left_rebalancing L hf h).1] at this

/-- C62: and in the middle of a transaction they hold at least that, save the one lamport that is in the rebalance record. -/
theorem C62_exempt_within (hap : cfg.Apart) {w₀ : World} (hf : World.Fresh cfg w₀) (h : List (Tx cfg)) {es es' : List (Event cfg)} {e : Event cfg}
    (he : historyEvents L w₀ h = es ++ e :: es') (hrun : LamRun r es lam lam') : RentExempt cfg r e.pre.ctl lam' := by
  obtain ⟨hc, hr⟩ := historyEvents_chain L w₀ h
  have hi := history_inv (L := L) hf h
  rw [he] at hc hr
  obtain ⟨w1, h1, h2⟩ := hc.split
  cases h2 with
  | cons _ =>
    exact hrun.exempt hap h1 (fun x hx => hr x (List.mem_append_left _ hx)) (fun x hx => (hi.1 x (he ▸ List.mem_append_left _ hx)).1.ctl)
      (by rw [hf.ctl]; exact ⟨by simp [Ctl.init], by simp [Ctl.init], by simp [Ctl.init], by simp [Ctl.init]⟩)

/-! ### Non-vacuity -/

/-- The lamports along given events, if foreign programs move none. -/
def lamEvents {cfg : Cfg} (r : Rent) : List (Event cfg) → Lam → R Lam
  | [], lam => .ok lam
  | e :: es, lam => match e.act with
    | .ext _ _ => lamEvents r es lam
    | .call c => do
      require (∀ a ∈ c.accs, a.signer = true → a.key ∉ cfg.owned) .missingRequiredSignature
      let ix ← decodeIx c.data
      let lam ← lamIx r e.pre c.accs lam ix
      lamEvents r es lam

theorem lamEvents_run {es : List (Event cfg)} {lam lam' : Lam} (h : lamEvents r es lam = .ok lam') : LamRun r es lam lam' := by
  induction es generalizing lam with
  | nil => cases h; exact .nil _
  | cons e es ih =>
    unfold lamEvents at h
    split at h
    · exact .ext ‹_› (credits_refl _) (ih h)
    · simp only [bind_ok, require_ok, exists_const] at h
      obtain ⟨hs, ix, hd, l1, h1, h2⟩ := h
      exact .call ‹_› hd hs (credits_refl _) h1 (ih h2)

end

namespace Ex

/-- 890880 lamports for an empty account and 6960 per byte, as on the main network; token accounts of 165 bytes. -/
def rent : Rent := ⟨fun n => 890880 + 6960 * n, fun h => by omega, fun _ _ => 2039280⟩

theorem cfg_apart : cfg.Apart := by
  refine ⟨by decide, fun w p m b k h => ?_⟩
  simp only [cfg] at h
  split at h
  · cases h
    intro hm
    have : ataKey w p m ∈ [1, 2, 3, 4] := hm
    simp only [List.mem_cons, List.not_mem_nil, or_false, ataKey] at this
    omega
  · cases h

/-- In a history with a rebalancing and changes of the list of authorities, starting with 10^9 lamports in all accounts but the controller's, which are
empty: what the accounts then hold. -/
example : (lamEvents rent (historyEvents .ex w0 hist2) fun k => if k ∈ cfg.owned then 0 else 10 ^ 9).toOption.map
    (fun lam => (lam 1, lam 2, lam 3, lam 4)) = some (rent.min 176, rent.min 160, rent.min 32, 0) := by decide +kernel

/-- Listing and removing an LST: the list shrinks to one entry and the refund account gets the excess. -/
example : (lamEvents rent (historyEvents .ex w0 histRemove) fun k => if k ∈ cfg.owned then 0 else 10 ^ 9).toOption.map
    (fun lam => (lam 1, lam 2, lam 4)) = some (rent.min 176, rent.min 80, 0) := by decide +kernel

end Ex
end S
