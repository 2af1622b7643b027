import Verif.FlatFee.Program
import Verif.Props.Data
import Verif.Props.Conversions
import Verif.Props.Trades
/-
C26: the flat-fee program's configuration, and which fees its prices use. C25: deposits and the no-fee program.
-/
set_option autoImplicit false
namespace S

/-! ### Runs -/

theorem readState_ok {fc : FlatCfg} {F : FlatFee} {a : Acc} {s : FlatState} :
    readState fc F a = .ok s ↔ a.key = fc.stateId ∧ F.state = some s := by
  simp only [readState, bind_ok, require_ok, exists_const, okOr_ok]

theorem readFee_ok {fc : FlatCfg} {v : FlatView fc} {F : FlatFee} {k : Pubkey} {a : FeeAccount} :
    readFee v F k = .ok a ↔ (F.fees k).or (v.foreign k) = some a := okOr_ok

theorem verifySignedFee_ok {f : Int} {u : Unit} : verifySignedFee f = .ok u ↔ -10000 ≤ f ∧ f ≤ 10000 := require_ok
theorem verifyUnsignedFee_ok {f : Nat} {u : Unit} : verifyUnsignedFee f = .ok u ↔ f ≤ 10000 := require_ok

/-- The flat-fee program's instructions that change its configuration, as the state before, the state after, and the accounts: what
each is allowed to change and what it takes. -/
inductive FlatChange (fc : FlatCfg) (F F' : FlatFee) (accs : List Acc) : FlatIx → Prop
  /-- Creates the state, once, with the fixed first manager and a withdrawal fee of 5 bps. -/
  | initialize (h : F.state = none) (h' : F' = { F with state := some ⟨fc.initialManager, 5⟩ }) : FlatChange fc F F' accs .initialize
  /-- The manager names the next manager. -/
  | setManager (s : FlatState) (new : Acc) (h : F.state = some s) (hm : SignedBy accs s.manager) (hn : accs[1]? = some new)
      (h' : F' = { F with state := some { s with manager := new.key } }) : FlatChange fc F F' accs .setManager
  /-- The manager sets the LP withdrawal fee, at most 100%. -/
  | setLpWithdrawalFee (s : FlatState) (bps : Nat) (h : F.state = some s) (hm : SignedBy accs s.manager) (hb : bps ≤ 10000)
      (h' : F' = { F with state := some { s with lpWithdrawalFeeBps := bps } }) : FlatChange fc F F' accs (.setLpWithdrawalFee bps)
  /-- The manager sets both fees of an existing fee account, within ±100%. -/
  | setLstFee (s : FlatState) (f : FeeAccount) (feeAcc : Acc) (i o : Int) (h : F.state = some s) (hm : SignedBy accs s.manager)
      (hi : -10000 ≤ i ∧ i ≤ 10000) (ho : -10000 ≤ o ∧ o ≤ 10000) (ha : accs[1]? = some feeAcc) (hf : F.fees feeAcc.key = some f)
      (h' : F' = { F with fees := upd F.fees feeAcc.key (some { f with inputFeeBps := i, outputFeeBps := o }) }) :
      FlatChange fc F F' accs (.setLstFee i o)
  /-- The manager creates the fee account of a mint, within ±100%. -/
  | addLst (s : FlatState) (mint : Acc) (i o : Int) (h : F.state = some s) (hm : SignedBy accs s.manager)
      (hi : -10000 ≤ i ∧ i ≤ 10000) (ho : -10000 ≤ o ∧ o ≤ 10000) (ha : accs[3]? = some mint)
      (hf : F.fees (fc.findFee mint.key).1 = none)
      (h' : F' = { F with fees := upd F.fees (fc.findFee mint.key).1 (some ⟨(fc.findFee mint.key).2, i, o⟩) }) :
      FlatChange fc F F' accs (.addLst i o)
  /-- The manager closes the fee account of a mint. -/
  | removeLst (s : FlatState) (mint : Acc) (h : F.state = some s) (hm : SignedBy accs s.manager) (ha : accs[3]? = some mint)
      (h' : F' = { F with fees := upd F.fees (fc.findFee mint.key).1 none }) : FlatChange fc F F' accs .removeLst


theorem signedBy_cons {a : Acc} {l : List Acc} {k : Pubkey} (h : a.key = k) (hs : a.signer = true) : SignedBy (a :: l) k :=
  ⟨a, List.mem_cons_self, hs, h⟩

/-- A successful flat-fee instruction leaves the program's accounts alone or is one of the changes above. -/
theorem flatProcess_change {L : RatioLib} {fc : FlatCfg} {v : FlatView fc} {F F' : FlatFee} {accs : List Acc} {ix : FlatIx} {r : Option Nat}
    (h : flatProcess L v F accs ix = .ok (F', r)) : F' = F ∨ FlatChange fc F F' accs ix := by
  cases ix with
  | priceExactIn a x =>
    simp only [flatProcess, bind_ok, pure_ok, Prod.mk.injEq] at h
    obtain ⟨_, _, rfl, _⟩ := h; exact .inl rfl
  | priceExactOut a x =>
    simp only [flatProcess, bind_ok, pure_ok, Prod.mk.injEq] at h
    obtain ⟨_, _, rfl, _⟩ := h; exact .inl rfl
  | priceLpTokensToMint a x =>
    simp only [flatProcess, pure_ok, Prod.mk.injEq] at h
    obtain ⟨rfl, _⟩ := h; exact .inl rfl
  | priceLpTokensToRedeem a x =>
    simp only [flatProcess, bind_ok, pure_ok, Prod.mk.injEq] at h
    obtain ⟨_, _, rfl, _⟩ := h; exact .inl rfl
  | setLpWithdrawalFee b =>
    simp only [flatProcess, bind_ok, pure_ok, Prod.mk.injEq] at h
    obtain ⟨F₁, h, rfl, _⟩ := h
    unfold flatSetLpFee at h
    split at h
    · rename_i manager state rest
      simp only [bind_ok, readState_ok, checkKeys_ok, checkWritable_ok, checkSigner_ok, List.forall_mem_cons, verifyUnsignedFee_ok,
        exists_const, pure_ok] at h
      obtain ⟨s, ⟨_, hs⟩, ⟨hm, _⟩, _, ⟨hsg, _⟩, hb, rfl⟩ := h
      exact .inr (.setLpWithdrawalFee s b hs (signedBy_cons hm hsg) hb rfl)
    · cases h
  | setLstFee i o =>
    simp only [flatProcess, bind_ok, pure_ok, Prod.mk.injEq] at h
    obtain ⟨F₁, h, rfl, _⟩ := h
    unfold flatSetLstFee at h
    split at h
    · rename_i manager feeAcc state rest
      simp only [bind_ok, readState_ok, checkKeys_ok, checkWritable_ok, checkSigner_ok, List.forall_mem_cons, verifySignedFee_ok,
        exists_const] at h
      obtain ⟨s, ⟨_, hs⟩, ⟨hm, _⟩, _, ⟨hsg, _⟩, hi, ho, a, _, h⟩ := h
      split at h
      · rename_i f hf
        rw [pure_ok] at h
        exact .inr (.setLstFee s f feeAcc i o hs (signedBy_cons hm hsg) hi ho rfl hf h.symm)
      · simp only [bind_ok, require_ok, exists_const, pure_ok] at h
        exact .inl h.2.symm
    · cases h
  | removeLst =>
    simp only [flatProcess, bind_ok, pure_ok, Prod.mk.injEq] at h
    obtain ⟨F₁, h, rfl, _⟩ := h
    unfold flatRemoveLst at h
    split at h
    · rename_i manager refund feeAcc mint state rest
      simp only [bind_ok, readState_ok, checkKeys_ok, checkWritable_ok, checkSigner_ok, List.forall_mem_cons, exists_const, pure_ok] at h
      obtain ⟨s, ⟨_, hs⟩, ⟨hm, hk, _⟩, _, ⟨hsg, _⟩, rfl⟩ := h
      exact .inr (.removeLst s mint hs (signedBy_cons hm hsg) rfl (by rw [← hk]))
    · cases h
  | addLst i o =>
    simp only [flatProcess, bind_ok, pure_ok, Prod.mk.injEq] at h
    obtain ⟨F₁, h, rfl, _⟩ := h
    unfold flatAddLst at h
    split at h
    · rename_i manager payer feeAcc mint state sys rest
      simp only [bind_ok, readState_ok, checkKeys_ok, checkWritable_ok, checkSigner_ok, List.forall_mem_cons, verifySignedFee_ok,
        exists_const, require_ok, pure_ok] at h
      obtain ⟨s, ⟨_, hs⟩, ⟨hm, hk, _⟩, _, ⟨hsg, _⟩, _, _, hi, ho, hf, rfl⟩ := h
      exact .inr (.addLst s mint i o hs (signedBy_cons hm hsg) hi ho rfl (by rw [← hk]; exact hf) (by rw [← hk]))
    · cases h
  | setManager =>
    simp only [flatProcess, bind_ok, pure_ok, Prod.mk.injEq] at h
    obtain ⟨F₁, h, rfl, _⟩ := h
    unfold flatSetManager at h
    split at h
    · rename_i current new state rest
      simp only [bind_ok, readState_ok, checkKeys_ok, checkWritable_ok, checkSigner_ok, List.forall_mem_cons, exists_const, pure_ok] at h
      obtain ⟨s, ⟨_, hs⟩, ⟨hm, _⟩, _, ⟨hsg, _⟩, rfl⟩ := h
      exact .inr (.setManager s new hs (signedBy_cons hm hsg) rfl rfl)
    · cases h
  | «initialize» =>
    simp only [flatProcess, bind_ok, pure_ok, Prod.mk.injEq] at h
    obtain ⟨F₁, h, rfl, _⟩ := h
    unfold flatInitialize at h
    split at h
    · simp only [bind_ok, checkKeys_ok, checkWritable_ok, checkSigner_ok, List.forall_mem_cons, exists_const, require_ok, pure_ok] at h
      obtain ⟨_, _, _, hn, rfl⟩ := h
      exact .inr (.initialize hn rfl)
    · cases h

/-! ### C26 -/

/-- C26, control: whatever instruction the flat-fee program executes, either its configuration stays as it was, or the instruction was
one of the listed changes, which all except the first initialization carry the signature of the manager of that moment. -/
theorem C26_changes {L : RatioLib} {fc : FlatCfg} (F : FlatFee) (c : FlatCall fc) :
    c.apply L F = F ∨ ∃ ix, decodeFlatIx c.data = .ok ix ∧ FlatChange fc F (c.apply L F) c.accs ix := by
  unfold FlatCall.apply
  cases h : flatInstruction L c.view F fc.programId c.accs c.data with
  | error e => exact .inl rfl
  | ok x =>
    obtain ⟨F', r⟩ := x
    simp only [flatInstruction, bind_ok, require_ok, exists_const, true_and] at h
    obtain ⟨ix, hd, hp⟩ := h
    rcases flatProcess_change hp with h | h
    · exact .inl h
    · exact .inr ⟨ix, hd, h⟩

theorem C26_signed {L : RatioLib} {fc : FlatCfg} {F : FlatFee} {s : FlatState} (c : FlatCall fc) (hs : F.state = some s)
    (h : c.apply L F ≠ F) : SignedBy c.accs s.manager := by
  rcases C26_changes (L := L) F c with h' | ⟨ix, _, h'⟩
  · exact absurd h' h
  · cases h' with
    | «initialize» h0 => rw [hs] at h0; cases h0
    | setManager s' n h0 hm => rw [hs] at h0; injection h0 with h0; subst h0; exact hm
    | setLpWithdrawalFee s' n h0 hm => rw [hs] at h0; injection h0 with h0; subst h0; exact hm
    | setLstFee s' _ _ _ _ h0 hm => rw [hs] at h0; injection h0 with h0; subst h0; exact hm
    | addLst s' _ _ _ h0 hm => rw [hs] at h0; injection h0 with h0; subst h0; exact hm
    | removeLst s' _ h0 hm => rw [hs] at h0; injection h0 with h0; subst h0; exact hm

/-- Configuration in bounds: fees within ±100%, the withdrawal fee at most 100%, each fee account at the address derived for one mint. -/
structure FlatFee.Ok (fc : FlatCfg) (F : FlatFee) : Prop where
  lpFee : ∀ s, F.state = some s → s.lpWithdrawalFeeBps ≤ 10000
  fee : ∀ k f, F.fees k = some f → (-10000 ≤ f.inputFeeBps ∧ f.inputFeeBps ≤ 10000) ∧ (-10000 ≤ f.outputFeeBps ∧ f.outputFeeBps ≤ 10000)
  addr : ∀ k f, F.fees k = some f → ∃ m, fc.findFee m = (k, f.bump)

theorem FlatFee.Ok.change {fc : FlatCfg} {F F' : FlatFee} {accs : List Acc} {ix : FlatIx} (h : F.Ok fc) (hc : FlatChange fc F F' accs ix) :
    F'.Ok fc := by
  cases hc with
  | «initialize» h0 h' =>
    subst h'
    exact ⟨by rintro s ⟨⟩; show 5 ≤ 10000; decide, h.fee, h.addr⟩
  | setManager s new h0 _ _ h' =>
    subst h'
    exact ⟨by rintro t ⟨⟩; exact h.lpFee s h0, h.fee, h.addr⟩
  | setLpWithdrawalFee s b h0 _ hb h' =>
    subst h'
    exact ⟨by rintro t ⟨⟩; exact hb, h.fee, h.addr⟩
  | setLstFee s f a i o h0 _ hi ho _ hf h' =>
    subst h'
    refine ⟨h.lpFee, ?_, ?_⟩
    · intro k g hg
      simp only [upd] at hg
      split at hg
      · injection hg with hg; subst hg; exact ⟨hi, ho⟩
      · exact h.fee k g hg
    · intro k g hg
      simp only [upd] at hg
      split at hg
      · rename_i e; subst e; injection hg with hg; subst hg; exact h.addr _ f hf
      · exact h.addr k g hg
  | addLst s m i o h0 _ hi ho _ hf h' =>
    subst h'
    refine ⟨h.lpFee, ?_, ?_⟩
    · intro k g hg
      simp only [upd] at hg
      split at hg
      · injection hg with hg; subst hg; exact ⟨hi, ho⟩
      · exact h.fee k g hg
    · intro k g hg
      simp only [upd] at hg
      split at hg
      · rename_i e; subst e; injection hg with hg; subst hg; exact ⟨m.key, rfl⟩
      · exact h.addr k g hg
  | removeLst s m h0 _ _ h' =>
    subst h'
    refine ⟨h.lpFee, ?_, ?_⟩
    · intro k g hg
      simp only [upd] at hg
      split at hg
      · cases hg
      · exact h.fee k g hg
    · intro k g hg
      simp only [upd] at hg
      split at hg
      · cases hg
      · exact h.addr k g hg

/-- C26, bounds: after any history of flat-fee instructions. -/
theorem C26_bounds {L : RatioLib} {fc : FlatCfg} (cs : List (FlatCall fc)) : (flatHistory L cs).Ok fc := by
  have gen : ∀ (cs : List (FlatCall fc)) (F : FlatFee), F.Ok fc → (cs.foldl (FlatCall.apply L) F).Ok fc := by
    intro cs
    induction cs with
    | nil => exact fun F h => h
    | cons c cs ih =>
      intro F h
      apply ih
      rcases C26_changes (L := L) F c with h' | ⟨ix, _, h'⟩
      · rw [h']; exact h
      · exact h.change h'
  exact gen cs .empty ⟨fun s h => (by cases h), fun k f h => (by cases h), fun k f h => (by cases h)⟩

/-- The fees set for a mint. -/
def FlatFee.feesOf (fc : FlatCfg) (F : FlatFee) (mint : Pubkey) : Option FeeAccount := F.fees (fc.findFee mint).1

theorem verifyPriceSwap_fees {fc : FlatCfg} {v : FlatView fc} {F : FlatFee} {accs : List Acc} {i o : FeeAccount} (hF : F.Ok fc)
    (h : verifyPriceSwap v F accs = .ok (i, o)) :
    ∃ a b, accs[0]? = some a ∧ accs[1]? = some b ∧ F.feesOf fc a.key = some i ∧ F.feesOf fc b.key = some o := by
  unfold verifyPriceSwap at h
  split at h
  · rename_i ia ob fi fo rest
    simp only [bind_ok, readFee_ok, okOr_ok, checkKeys_ok, List.forall_mem_cons, exists_const, pure_ok, Prod.mk.injEq] at h
    obtain ⟨i', hi, o', ho, ki, hki, ko, hko, ⟨h1, h2, _⟩, rfl, rfl⟩ := h
    have key : ∀ {k m : Pubkey} {f : FeeAccount}, (F.fees k).or (v.foreign k) = some f → fc.feeAddr m f.bump = some k →
        F.feesOf fc m = some f := by
      intro k m f hf hk
      rw [v.pda hk, Option.or_none] at hf
      obtain ⟨m', hm'⟩ := hF.addr k f hf
      have := fc.findFee_addr m'
      rw [hm'] at this
      have e := fc.feeAddr_inj this hk
      subst e
      unfold FlatFee.feesOf
      rw [hm']; exact hf
    exact ⟨ia, ob, rfl, rfl, key hi (by rw [h1]; exact hki), key ho (by rw [h2]; exact hko)⟩
  · cases h

/-- C26, use: after any history, a swap price is computed from the input fee set for the first mint passed and the output fee set for the
second, whatever fee accounts are passed; both mints must have fees set. -/
theorem C26_price_exact_in {L : RatioLib} {fc : FlatCfg} {cs : List (FlatCall fc)} {v : FlatView fc} {F' : FlatFee} {accs : List Acc}
    {a x : Nat} {r : Option Nat} (h : flatProcess L v (flatHistory L cs) accs (.priceExactIn a x) = .ok (F', r)) :
    F' = flatHistory L cs ∧ ∃ mi mo fi fo y, accs[0]? = some mi ∧ accs[1]? = some mo ∧
      (flatHistory L cs).feesOf fc mi.key = some fi ∧ (flatHistory L cs).feesOf fc mo.key = some fo ∧
      r = some y ∧ flatPriceExactIn L fi.inputFeeBps fo.outputFeeBps x = .ok y := by
  simp only [flatProcess, flatExactIn, bind_ok, pure_ok, Prod.mk.injEq, Prod.exists] at h
  obtain ⟨y, ⟨fi, fo, hv, hy⟩, rfl, rfl⟩ := h
  obtain ⟨mi, mo, h0, h1, hi, ho⟩ := verifyPriceSwap_fees (C26_bounds cs) hv
  exact ⟨rfl, mi, mo, fi, fo, y, h0, h1, hi, ho, rfl, hy⟩

theorem C26_price_exact_out {L : RatioLib} {fc : FlatCfg} {cs : List (FlatCall fc)} {v : FlatView fc} {F' : FlatFee} {accs : List Acc}
    {a x : Nat} {r : Option Nat} (h : flatProcess L v (flatHistory L cs) accs (.priceExactOut a x) = .ok (F', r)) :
    F' = flatHistory L cs ∧ ∃ mi mo fi fo y, accs[0]? = some mi ∧ accs[1]? = some mo ∧
      (flatHistory L cs).feesOf fc mi.key = some fi ∧ (flatHistory L cs).feesOf fc mo.key = some fo ∧
      r = some y ∧ flatPriceExactOut L fi.inputFeeBps fo.outputFeeBps x = .ok y := by
  simp only [flatProcess, flatExactOut, bind_ok, pure_ok, Prod.mk.injEq, Prod.exists] at h
  obtain ⟨y, ⟨fi, fo, hv, hy⟩, rfl, rfl⟩ := h
  obtain ⟨mi, mo, h0, h1, hi, ho⟩ := verifyPriceSwap_fees (C26_bounds cs) hv
  exact ⟨rfl, mi, mo, fi, fo, y, h0, h1, hi, ho, rfl, hy⟩

theorem C26_price_redeem {L : RatioLib} {fc : FlatCfg} {F F' : FlatFee} {v : FlatView fc} {accs : List Acc}
    {a x : Nat} {r : Option Nat} (h : flatProcess L v F accs (.priceLpTokensToRedeem a x) = .ok (F', r)) :
    F' = F ∧ ∃ s y, F.state = some s ∧ r = some y ∧ flatPriceRedeem s.lpWithdrawalFeeBps x = .ok y := by
  simp only [flatProcess, bind_ok, pure_ok, Prod.mk.injEq] at h
  obtain ⟨y, h, rfl, rfl⟩ := h
  unfold flatRedeem at h
  split at h
  · simp only [bind_ok, okOr_ok, checkKeys_ok, exists_const] at h
    obtain ⟨_, s, hs, hy⟩ := h
    exact ⟨rfl, s, y, hs, rfl, hy⟩
  · cases h


/-! ### C25 and the requests the controller makes -/

/-- Arguments in range of their types. -/
def PriceReq.Wf : PriceReq → Prop
  | .exactIn a v | .exactOut a v | .lpTokensToMint a v | .lpTokensToRedeem a v => a < U64 ∧ v < U64

theorem readTwo_ok {k a b : Nat} {buf : List UInt8} :
    readTwo k buf = .ok (a, b) ↔ a < 256 ^ k ∧ b < 256 ^ k ∧ ∃ r, buf = toLE k a ++ (toLE k b ++ r) := by
  simp only [readTwo, bind_ok, Prod.exists, readLE_ok, pure_ok, Prod.mk.injEq]
  constructor
  · rintro ⟨_, _, ⟨h1, rfl⟩, _, r, ⟨h2, rfl⟩, rfl, rfl⟩; exact ⟨h1, h2, r, rfl⟩
  · rintro ⟨h1, h2, r, rfl⟩; exact ⟨a, _, ⟨h1, rfl⟩, b, r, ⟨h2, rfl⟩, rfl, rfl⟩

theorem readTwo_enc {a b : Nat} (ha : a < U64) (hb : b < U64) : readTwo 8 (toLE 8 a ++ toLE 8 b) = .ok (a, b) :=
  readTwo_ok.2 ⟨by simpa using ha, by simpa using hb, [], by simp⟩

/-- The request as the flat-fee program reads it. -/
def PriceReq.flat : PriceReq → FlatIx
  | .exactIn a v => .priceExactIn a v
  | .exactOut a v => .priceExactOut a v
  | .lpTokensToMint a v => .priceLpTokensToMint a v
  | .lpTokensToRedeem a v => .priceLpTokensToRedeem a v

/-- The flat-fee program understands the controller's requests as meant. -/
theorem flat_understands (q : PriceReq) (h : q.Wf) : decodeFlatIx q.encode = .ok q.flat := by
  cases q with
  | exactIn a v => show (readTwo 8 _ >>= _) = _; rw [readTwo_enc h.1 h.2]; rfl
  | exactOut a v => show (readTwo 8 _ >>= _) = _; rw [readTwo_enc h.1 h.2]; rfl
  | lpTokensToMint a v => show (readTwo 8 _ >>= _) = _; rw [readTwo_enc h.1 h.2]; rfl
  | lpTokensToRedeem a v => show (readTwo 8 _ >>= _) = _; rw [readTwo_enc h.1 h.2]; rfl

/-- The SOL value a request asks about. -/
def PriceReq.value : PriceReq → Nat
  | .exactIn _ v | .exactOut _ v | .lpTokensToMint _ v | .lpTokensToRedeem _ v => v

/-- C25, no-fee program: it answers every request of the controller with the value asked about. -/
theorem C25_no_fee (q : PriceReq) (h : q.Wf) : noFeeInstruction q.encode = .ok q.value := by
  cases q with
  | exactIn a v => show (readTwo 8 _ >>= _) = _; rw [readTwo_enc h.1 h.2]; rfl
  | exactOut a v => show (readTwo 8 _ >>= _) = _; rw [readTwo_enc h.1 h.2]; rfl
  | lpTokensToMint a v => show (readTwo 8 _ >>= _) = _; rw [readTwo_enc h.1 h.2]; rfl
  | lpTokensToRedeem a v => show (readTwo 8 _ >>= _) = _; rw [readTwo_enc h.1 h.2]; rfl

/-- C25, deposits: the flat-fee program answers deposit requests with the value asked about, in every state and with any accounts. -/
theorem C25_deposit {L : RatioLib} {fc : FlatCfg} (v : FlatView fc) (F : FlatFee) (accs : List Acc) {a x : Nat} (ha : a < U64) (hx : x < U64) :
    flatInstruction L v F fc.programId accs (PriceReq.lpTokensToMint a x).encode = .ok (F, some x) := by
  unfold flatInstruction
  have := flat_understands (.lpTokensToMint a x) ⟨ha, hx⟩
  rw [this]
  simp [require, bind, Except.bind, PriceReq.flat, flatProcess, pure, Except.pure]

/-! ### The controller with the flat-fee program as its pricing program -/

/-- In `env`, program `prog` answers as the flat-fee program with configuration `F` does on the same accounts and request
(`flat_understands`: the bytes sent decode to that request). -/
def Env.FlatPriced {cfg : Cfg} (env : Env cfg) (L : RatioLib) (fc : FlatCfg) (F : FlatFee) (prog : Pubkey) : Prop :=
  ∀ {n w ms q r l}, env.askPrice n w prog ms q = .ok (r, l) → ∃ v : FlatView fc, ∃ F', flatProcess L v F ms q.flat = .ok (F', some r)

/-- No pair of LSTs with fees set has a negative total fee or one of 100% or more. -/
def FlatFee.Charges (fc : FlatCfg) (F : FlatFee) : Prop :=
  ∀ m m' fi fo, F.feesOf fc m = some fi → F.feesOf fc m' = some fo → 0 ≤ fi.inputFeeBps + fo.outputFeeBps ∧
    fi.inputFeeBps + fo.outputFeeBps < 10000

/-- The flat-fee program, after any history that leaves no negative total fees, gives no rebates: C37 applies to it. -/
theorem flat_noRebate {cfg : Cfg} {env : Env cfg} {L : RatioLib} {fc : FlatCfg} {cs : List (FlatCall fc)} {prog : Pubkey}
    (hp : env.FlatPriced L fc (flatHistory L cs) prog) (hc : (flatHistory L cs).Charges fc) : env.NoRebate prog where
  exactIn {n w ms a v r l} h := by
    obtain ⟨view, F', hf⟩ := hp h
    obtain ⟨_, mi, mo, fi, fo, y, _, _, hi, ho, hr, hy⟩ := C26_price_exact_in hf
    injection hr with hr; subst hr
    exact (C24_no_gain (hc _ _ _ _ hi ho).1).1 _ _ hy
  exactOut {n w ms a v r l} h := by
    obtain ⟨view, F', hf⟩ := hp h
    obtain ⟨_, mi, mo, fi, fo, y, _, _, hi, ho, hr, hy⟩ := C26_price_exact_out hf
    injection hr with hr; subst hr
    exact ((C24_no_gain (hc _ _ _ _ hi ho).1).2 _ _ (hc _ _ _ _ hi ho).2 hy).le

/-- With the flat-fee program, a deposit or redemption is never refused for a price above the value. -/
theorem flat_lp_prices {cfg : Cfg} {env : Env cfg} {L : RatioLib} {fc : FlatCfg} {F : FlatFee} {prog : Pubkey}
    (hp : env.FlatPriced L fc F prog) :
    (∀ n w ms a v r l, env.askPrice n w prog ms (.lpTokensToMint a v) = .ok (r, l) → r = v) ∧
    (∀ n w ms a v r l, env.askPrice n w prog ms (.lpTokensToRedeem a v) = .ok (r, l) →
      ∃ s, F.state = some s ∧ r = v - cdiv (v * s.lpWithdrawalFeeBps) 10000) := by
  constructor
  · intro n w ms a v r l h
    obtain ⟨view, F', hf⟩ := hp h
    simp only [PriceReq.flat, flatProcess, pure_ok, Prod.mk.injEq, Option.some.injEq] at hf
    exact hf.2.symm
  · intro n w ms a v r l h
    obtain ⟨view, F', hf⟩ := hp h
    obtain ⟨_, s, y, hs, hr, hy⟩ := C26_price_redeem hf
    injection hr with hr; subst hr
    exact ⟨s, hs, (C25_redeem.1 hy).2⟩

/-! ### Instruction data of the flat-fee program -/

/-- Arguments in range of their types. -/
def FlatIx.Wf : FlatIx → Prop
  | .priceExactIn a v | .priceExactOut a v | .priceLpTokensToMint a v | .priceLpTokensToRedeem a v => a < U64 ∧ v < U64
  | .setLpWithdrawalFee b => b < 65536
  | .setLstFee i o | .addLst i o => (-32768 ≤ i ∧ i ≤ 32767) ∧ (-32768 ≤ o ∧ o ≤ 32767)
  | .removeLst | .setManager | .initialize => True

theorem i16_roundtrip {x : Int} (h : -32768 ≤ x ∧ x ≤ 32767) : i16OfNat (natOfI16 x) = x := by
  unfold i16OfNat natOfI16; split <;> omega

theorem natOfI16_lt (x : Int) : natOfI16 x < 256 ^ 2 := by unfold natOfI16; omega

/-- Flat-fee instruction data round-trips. -/
theorem flat_roundtrip (ix : FlatIx) (h : ix.Wf) (rest : List UInt8) : decodeFlatIx (ix.encode ++ rest) = .ok ix := by
  have two : ∀ {k a b : Nat}, a < 256 ^ k → b < 256 ^ k → readTwo k (toLE k a ++ toLE k b ++ rest) = .ok (a, b) := by
    intro k a b ha hb
    exact readTwo_ok.2 ⟨ha, hb, rest, by simp⟩
  cases ix with
  | priceExactIn a v => show (readTwo 8 (toLE 8 a ++ toLE 8 v ++ rest) >>= _) = _; rw [two (k := 8) (by simpa using h.1) (by simpa using h.2)]; rfl
  | priceExactOut a v => show (readTwo 8 (toLE 8 a ++ toLE 8 v ++ rest) >>= _) = _; rw [two (k := 8) (by simpa using h.1) (by simpa using h.2)]; rfl
  | priceLpTokensToMint a v => show (readTwo 8 (toLE 8 a ++ toLE 8 v ++ rest) >>= _) = _; rw [two (k := 8) (by simpa using h.1) (by simpa using h.2)]; rfl
  | priceLpTokensToRedeem a v => show (readTwo 8 (toLE 8 a ++ toLE 8 v ++ rest) >>= _) = _; rw [two (k := 8) (by simpa using h.1) (by simpa using h.2)]; rfl
  | setLpWithdrawalFee b =>
    show (readLE 2 (toLE 2 b ++ rest) >>= _) = _
    rw [readLE_ok.2 ⟨show b < 256 ^ 2 from h, rfl⟩]; rfl
  | setLstFee i o =>
    show (readTwo 2 (toLE 2 (natOfI16 i) ++ toLE 2 (natOfI16 o) ++ rest) >>= _) = _
    rw [two (k := 2) (natOfI16_lt i) (natOfI16_lt o)]
    show Except.ok (FlatIx.setLstFee _ _) = _
    rw [i16_roundtrip h.1, i16_roundtrip h.2]
  | removeLst => rfl
  | addLst i o =>
    show (readTwo 2 (toLE 2 (natOfI16 i) ++ toLE 2 (natOfI16 o) ++ rest) >>= _) = _
    rw [two (k := 2) (natOfI16_lt i) (natOfI16_lt o)]
    show Except.ok (FlatIx.addLst _ _) = _
    rw [i16_roundtrip h.1, i16_roundtrip h.2]
  | setManager => rfl
  | «initialize» => rfl

/-! ### A concrete history -/
namespace Ex

def fc : FlatCfg where
  programId := 7
  stateId := 300
  initialManager := 301
  systemProgram := 11
  splToken := 8
  token22 := 9
  feeAddr m b := if b = 254 then some (1000 + m) else none
  findFee m := (1000 + m, 254)
  findFee_addr m := by simp
  findFee_u8 m := by show 254 < 256; decide
  feeAddr_inj := by
    intro m b m' b' k h h'
    split at h
    · split at h'
      · injection h with h; injection h' with h'; exact Nat.add_left_cancel (h.trans h'.symm)
      · cases h'
    · cases h

def fview : FlatView fc where
  foreign k := if k = 900 then some ⟨254, 0, 0⟩ else none
  mints := led.mints
  pda {m b k} h := by
    simp only [fc] at h
    split at h
    · injection h with h; subst h
      exact if_neg (by intro h; have h : 1000 + m = 900 := h; exact absurd (h ▸ Nat.le_add_right 1000 m) (by decide))
    · cases h

def fcall (accs : List Acc) (ix : FlatIx) : FlatCall fc := ⟨fview, accs, ix.encode⟩

/-- Initialize; add LST 21 at 30 and 20 bps and LST 22 at 10 and -5 bps; change 22's to 40 and -10; new manager 305, who sets the withdrawal fee to 25 bps; the
old manager's attempt to remove LST 21 and an attempt with fee 10001 fail. -/
def fhist : List (FlatCall fc) :=
  [fcall [sg 40, rw 300, ro 11] .initialize,
   fcall [sg 301, sg 40, rw 1021, ro 21, ro 300, ro 11] (.addLst 30 20),
   fcall [sg 301, sg 40, rw 1022, ro 22, ro 300, ro 11] (.addLst 10 (-5)),
   fcall [sg 301, rw 1022, ro 300] (.setLstFee 40 (-10)),
   fcall [sg 301, rw 1022, ro 300] (.setLstFee 10001 0),
   fcall [sg 301, ro 305, rw 300] .setManager,
   fcall [sg 305, rw 300] (.setLpWithdrawalFee 25),
   fcall [sg 301, rw 40, rw 1021, ro 21, ro 300] .removeLst]

example : (flatHistory .ex fhist).state = some ⟨305, 25⟩ ∧ (flatHistory .ex fhist).feesOf fc 21 = some ⟨254, 30, 20⟩ ∧
    (flatHistory .ex fhist).feesOf fc 22 = some ⟨254, 40, -10⟩ := by decide +kernel

/-- The manager then removes LST 21. -/
example : (flatHistory .ex (fhist ++ [fcall [sg 305, rw 40, rw 1021, ro 21, ro 300] .removeLst])).feesOf fc 21 = none := by decide +kernel

-- Prices: 21 for 22 costs 30 - 10 bps, 22 for 21 costs 40 + 20; look-alike fee account 900 is refused
example : ((flatProcess .ex fview (flatHistory .ex fhist) [ro 21, ro 22, ro 1021, ro 1022] (.priceExactIn 5 1000000)).toOption.map (·.2),
    (flatProcess .ex fview (flatHistory .ex fhist) [ro 22, ro 21, ro 1022, ro 1021] (.priceExactIn 5 1000000)).toOption.map (·.2),
    (flatProcess .ex fview (flatHistory .ex fhist) [ro 22, ro 21, ro 1022, ro 1021] (.priceExactOut 5 994000)).toOption.map (·.2),
    (flatProcess .ex fview (flatHistory .ex fhist) [ro 22, ro 21, ro 900, ro 1021] (.priceExactIn 5 1000000)).toOption.map (·.2),
    (flatProcess .ex fview (flatHistory .ex fhist) [ro 22, ro 300] (.priceLpTokensToRedeem 5 1000000)).toOption.map (·.2)) =
    (some (some 998000), some (some 994000), some (some 1000002), none, some (some 997500)) := by decide +kernel

/-- An environment priced by that program. -/
def fenv : Env cfg := Env.pure cfg calcF fun _ ms q =>
  (flatProcess .ex fview (flatHistory .ex fhist) ms q.flat).bind fun x => okOr x.2 .faultyPricingProgram

theorem fenv_priced : fenv.FlatPriced .ex fc (flatHistory .ex fhist) 7 := by
  intro n w ms q r l h
  have h := (Env.pure_price.1 h).1
  cases hf : flatProcess .ex fview (flatHistory .ex fhist) ms q.flat with
  | error e => rw [hf] at h; cases h
  | ok x =>
    rw [hf] at h
    have h : okOr x.2 Err.faultyPricingProgram = .ok r := h
    rw [okOr_ok] at h
    exact ⟨fview, x.1, by rw [hf, ← h]⟩

end Ex

end S
