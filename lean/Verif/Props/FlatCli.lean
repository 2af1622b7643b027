import Verif.FlatFee.Client
import Verif.Props.FlatFee
import Verif.Proofs.Client
/-
C58: the commands of the flat-fee program's manager.
-/
set_option autoImplicit false
namespace S

/-! ### Specification -/

/-- The program sees the instructions of a transaction with their accounts and data (`SeenAs`: an account may be a signer or writable because of another
instruction of the transaction). -/
def Received {fc : FlatCfg} (ixs : List TopIx) (cs : List (FlatCall fc)) : Prop :=
  List.Forall₂ (fun ix c => SeenAs ix.accs c.accs ∧ c.data = ix.data) ixs cs

/-- A fee the program accepts: between -100% and 100%. -/
def BpsBound (x : Int) : Prop := -10000 ≤ x ∧ x ≤ 10000

/-- A 16-bit command-line argument. -/
def I16 (x : Int) : Prop := -32768 ≤ x ∧ x ≤ 32767

/-- `accs` lists the accounts of the flat-fee program, each once. -/
structure Accounts (fc : FlatCfg) (F : FlatFee) (accs : List (Pubkey × FlatData)) : Prop where
  once : (accs.map Prod.fst).Nodup
  state : ∀ k s, (k, FlatData.state s) ∈ accs ↔ k = fc.stateId ∧ F.state = some s
  fee : ∀ k f, (k, FlatData.fee f) ∈ accs ↔ F.fees k = some f

/-- Every fee account at `i` and `o`, everything else as it was. -/
def FlatFee.allAt (F : FlatFee) (i o : Int) : FlatFee :=
  { F with fees := fun k => (F.fees k).map fun f => { f with inputFeeBps := i, outputFeeBps := o } }

/-! ### Proofs -/

theorem fetchManaged_ok {F : FlatFee} {signer : Pubkey} {s : FlatState} :
    fetchManaged F signer = .ok s ↔ F.state = some s ∧ s.manager = signer := by
  simp only [fetchManaged, bind_ok, okOr_ok, require_ok, exists_const, pure_ok]
  constructor
  · rintro ⟨a, h1, h2, rfl⟩; exact ⟨h1, h2⟩
  · rintro ⟨h1, h2⟩; exact ⟨s, h1, h2, rfl⟩

theorem received_nil {fc : FlatCfg} {cs : List (FlatCall fc)} (h : Received [] cs) : cs = [] := by cases h; rfl

theorem received_cons {fc : FlatCfg} {ix : TopIx} {ixs : List TopIx} {cs : List (FlatCall fc)} (h : Received (ix :: ixs) cs) :
    ∃ c cs', cs = c :: cs' ∧ SeenAs ix.accs c.accs ∧ c.data = ix.data ∧ Received ixs cs' := by
  cases h with
  | cons h hs => exact ⟨_, _, rfl, h.1, h.2, hs⟩

/-- One instruction, decoded. -/
theorem flat_one {L : RatioLib} {fc : FlatCfg} {c : FlatCall fc} {ix : FlatIx} (hix : ix.Wf) (hd : c.data = ix.encode) (F : FlatFee) :
    flatInstruction L c.view F fc.programId c.accs c.data = flatProcess L c.view F c.accs ix := by
  have h := flat_roundtrip ix hix []
  rw [List.append_nil] at h
  simp only [flatInstruction, require, if_true, hd, h, bind, Except.bind]

theorem flat_single {L : RatioLib} {fc : FlatCfg} {ix : FlatIx} {accs : List Acc} {cs : List (FlatCall fc)} (hix : ix.Wf)
    (h : Received [⟨fc.programId, accs, ix.encode⟩] cs) (F : FlatFee) :
    ∃ (v : FlatView fc) (seen : List Acc), SeenAs accs seen ∧ ∀ F', runFlatTx L F cs = .ok F' ↔ ∃ r, flatProcess L v F seen ix = .ok (F', r) := by
  obtain ⟨c, cs', rfl, h1, h2, h3⟩ := received_cons h
  obtain rfl := received_nil h3
  refine ⟨c.view, c.accs, h1, fun F' => ?_⟩
  simp only [runFlatTx, flat_one hix h2, bind_ok, Prod.exists, Except.ok.injEq, exists_eq_right_right]
  constructor
  · rintro ⟨a, b, h, rfl⟩; exact ⟨b, h⟩
  · rintro ⟨b, h⟩; exact ⟨_, b, h, rfl⟩

section
variable {L : RatioLib} {fc : FlatCfg} {F F' : FlatFee} {signer : Pubkey} {ixs : List TopIx} {cs : List (FlatCall fc)}

theorem setLstFee_run {v : FlatView fc} {manager k : Pubkey} {i o : Int} {seen : List Acc} {s : FlatState} {f : FeeAccount}
    (hs : F.state = some s) (hm : s.manager = manager) (hf : F.fees k = some f)
    (h : SeenAs [sgMeta manager, wrMeta k, roMeta fc.stateId] seen) :
    flatSetLstFee v F seen i o = .ok F' ↔ BpsBound i ∧ BpsBound o ∧
      F' = { F with fees := upd F.fees k (some { f with inputFeeBps := i, outputFeeBps := o }) } := by
  obtain ⟨a, _, rfl, ha, h⟩ := SeenAs.cons_inv h
  obtain ⟨b, _, rfl, hb, h⟩ := SeenAs.cons_inv h
  obtain ⟨c, _, rfl, hc, h⟩ := SeenAs.cons_inv h
  have hk : b.key = k := hb.key
  have hr : readFee v F k = .ok f := by rw [readFee_ok]; simp [hf]
  simp only [flatSetLstFee, readState, bind_ok, okOr_ok, checkKeys_ok, checkWritable_ok, checkSigner_ok, require_ok, exists_const, hk, hr, hf, pure_ok,
    verifySignedFee_ok, hs]
  constructor
  · rintro ⟨s', ⟨_, h1⟩, _, _, _, h5, h6, _, _, h8⟩
    exact ⟨h5, h6, h8.symm⟩
  · rintro ⟨h5, h6, h8⟩
    refine ⟨s, ⟨hc.key, rfl⟩, ?_, ?_, ?_, h5, h6, f, rfl, h8.symm⟩
    · simp [ha.key, hc.key, sgMeta, roMeta, hm]
    · simp [hb.writable rfl]
    · simp [ha.signer rfl]

theorem findFee_foreign (v : FlatView fc) (m : Pubkey) : v.foreign (fc.findFee m).1 = none := v.pda (fc.findFee_addr m)

/-- C58: each command goes on exactly if it is given the manager's key. -/
theorem C58_refuses : let ok := ∃ s, F.state = some s ∧ s.manager = signer
    (∀ mint i o, (∃ ixs, cmdSetLstFee fc F signer mint i o = .ok ixs) ↔ ok) ∧
    (∀ payer mint i o, (∃ ixs, cmdAddLst fc F signer payer mint i o = .ok ixs) ↔ ok) ∧
    (∀ refund mint, (∃ ixs, cmdRemoveLst fc F signer refund mint = .ok ixs) ↔ ok) ∧
    (∀ new, (∃ ixs, cmdSetManager fc F signer new = .ok ixs) ↔ ok) ∧
    (∀ bps, (∃ ixs, cmdSetLpFee fc F signer bps = .ok ixs) ↔ ok) := by
  have key : ∀ f : FlatState → List TopIx, (∃ ixs, (do let s ← fetchManaged F signer; pure (f s) : R (List TopIx)) = .ok ixs) ↔
      ∃ s, F.state = some s ∧ s.manager = signer := by
    intro f
    simp only [bind_ok, fetchManaged_ok, pure_ok]
    constructor
    · rintro ⟨_, s, h, _⟩; exact ⟨s, h⟩
    · rintro ⟨s, h⟩; exact ⟨_, s, h, rfl⟩
  exact ⟨fun _ _ _ => key _, fun _ _ _ _ => key _, fun _ _ => key _, fun _ => key _, fun _ => key _⟩

/-- C58, `set-lst-fee`: its transaction succeeds exactly if the LST has a fee account and the fees are within ±100%, and then sets the fees of that
account and changes nothing else. -/
theorem C58_setLstFee {mint : Pubkey} {i o : Int} (hi : I16 i) (ho : I16 o) (hc : cmdSetLstFee fc F signer mint i o = .ok ixs)
    (hr : Received ixs cs) :
    runFlatTx L F cs = .ok F' ↔ BpsBound i ∧ BpsBound o ∧ ∃ f, F.feesOf fc mint = some f ∧
      F' = { F with fees := upd F.fees (fc.findFee mint).1 (some { f with inputFeeBps := i, outputFeeBps := o }) } := by
  simp only [cmdSetLstFee, bind_ok, fetchManaged_ok, pure_ok] at hc
  obtain ⟨s, ⟨hs, hm⟩, rfl⟩ := hc
  obtain ⟨v, seen, hseen, h⟩ := flat_single (L := L) (ix := .setLstFee i o) ⟨hi, ho⟩ hr F
  rw [h]
  simp only [flatProcess, bind_ok, pure_ok, Prod.mk.injEq]
  cases hf : F.feesOf fc mint with
  | some f =>
    have hrun : ∀ F', flatSetLstFee v F seen i o = .ok F' ↔ _ := fun F' => setLstFee_run (F' := F') hs rfl hf hseen
    constructor
    · rintro ⟨r, F'', h1, rfl, _⟩
      obtain ⟨h1, h2, h3⟩ := (hrun _).1 h1
      exact ⟨h1, h2, f, rfl, h3⟩
    · rintro ⟨h1, h2, f', hf', h3⟩
      injection hf' with hf'; subst hf'
      exact ⟨none, F', (hrun _).2 ⟨h1, h2, h3⟩, rfl, rfl⟩
  | none =>
    constructor
    · rintro ⟨r, F'', h1, rfl, _⟩
      exfalso
      obtain ⟨a, _, rfl, ha, hseen⟩ := SeenAs.cons_inv hseen
      obtain ⟨b, _, rfl, hb, hseen⟩ := SeenAs.cons_inv hseen
      obtain ⟨c, _, rfl, hc, hseen⟩ := SeenAs.cons_inv hseen
      have hk : b.key = (fc.findFee mint).1 := hb.key
      simp only [flatSetLstFee, bind_ok, readFee, hk, findFee_foreign v, show F.fees (fc.findFee mint).1 = none from hf, okOr_ok,
        Option.or_none] at h1
      obtain ⟨_, _, _, _, _, _, _, _, _, _, _, _, _, h, _⟩ := h1
      cases h
    · rintro ⟨_, _, f, h, _⟩; cases h

/-- C58, `add-lst`: its transaction succeeds exactly if the mint is one, has no fee account yet and the fees are within ±100%, and then creates the fee
account with these fees and changes nothing else. -/
theorem C58_addLst {payer mint : Pubkey} {i o : Int} {v : FlatView fc} (hi : I16 i) (ho : I16 o)
    (hc : cmdAddLst fc F signer payer mint i o = .ok ixs) (hr : Received ixs cs) (hv : ∀ c ∈ cs, c.view = v) :
    runFlatTx L F cs = .ok F' ↔ (∃ m, v.mints mint = some m ∧ (m.program = fc.splToken ∨ m.program = fc.token22)) ∧
      BpsBound i ∧ BpsBound o ∧ F.feesOf fc mint = none ∧
      F' = { F with fees := upd F.fees (fc.findFee mint).1 (some ⟨(fc.findFee mint).2, i, o⟩) } := by
  simp only [cmdAddLst, bind_ok, fetchManaged_ok, pure_ok] at hc
  obtain ⟨s, ⟨hs, hm⟩, rfl⟩ := hc
  obtain ⟨c, cs', rfl, hseen, h2, h3⟩ := received_cons hr
  obtain rfl := received_nil h3
  obtain rfl := hv c (List.mem_cons_self ..)
  have hrun : runFlatTx L F [c] = .ok F' ↔ flatAddLst c.view F c.accs i o = .ok F' := by
    simp only [runFlatTx, flat_one (ix := .addLst i o) ⟨hi, ho⟩ h2, bind_ok, Prod.exists, flatProcess, pure_ok, Prod.mk.injEq, Except.ok.injEq]
    constructor
    · rintro ⟨a, b, ⟨_, h, rfl, _⟩, rfl⟩; exact h
    · intro h; exact ⟨_, none, ⟨_, h, rfl, rfl⟩, rfl⟩
  rw [hrun]
  clear hrun hr h3 h2 hv
  generalize c.accs = accs at hseen
  obtain ⟨a1, _, rfl, ha1, hseen⟩ := SeenAs.cons_inv hseen
  obtain ⟨a2, _, rfl, ha2, hseen⟩ := SeenAs.cons_inv hseen
  obtain ⟨a3, _, rfl, ha3, hseen⟩ := SeenAs.cons_inv hseen
  obtain ⟨a4, _, rfl, ha4, hseen⟩ := SeenAs.cons_inv hseen
  obtain ⟨a5, _, rfl, ha5, hseen⟩ := SeenAs.cons_inv hseen
  obtain ⟨a6, _, rfl, ha6, hseen⟩ := SeenAs.cons_inv hseen
  have k1 : a1.key = s.manager := ha1.key
  have k3 : a3.key = (fc.findFee mint).1 := ha3.key
  have k4 : a4.key = mint := ha4.key
  have k5 : a5.key = fc.stateId := ha5.key
  have k6 : a6.key = fc.systemProgram := ha6.key
  have s1 := ha1.signer rfl
  have s2 := ha2.signer rfl
  have w2 := ha2.writable rfl
  have w3 := ha3.writable rfl
  simp only [flatAddLst, readState, verifyMint, bind_ok, okOr_ok, checkKeys_ok, checkWritable_ok, checkSigner_ok, require_ok, exists_const, k1, k3, k4,
    k5, k6, pure_ok, verifySignedFee_ok, hs, FlatFee.feesOf]
  constructor
  · rintro ⟨s', _, _, _, _, hmint, h5, h6, h7, h8⟩
    exact ⟨hmint, h5, h6, h7, h8.symm⟩
  · rintro ⟨hmint, h5, h6, h7, h8⟩
    refine ⟨s, ⟨trivial, rfl⟩, ?_, ?_, ?_, hmint, h5, h6, h7, h8.symm⟩
    · simp
    · simp [w2, w3]
    · simp [s1, s2]

/-- C58, `remove-lst`: its transaction always succeeds; afterwards the LST has no fee account, and nothing else has changed. -/
theorem C58_removeLst {refund mint : Pubkey} (hc : cmdRemoveLst fc F signer refund mint = .ok ixs) (hr : Received ixs cs) :
    runFlatTx L F cs = .ok { F with fees := upd F.fees (fc.findFee mint).1 none } := by
  simp only [cmdRemoveLst, bind_ok, fetchManaged_ok, pure_ok] at hc
  obtain ⟨s, ⟨hs, hm⟩, rfl⟩ := hc
  obtain ⟨v, seen, hseen, h⟩ := flat_single (L := L) (ix := .removeLst) trivial hr F
  rw [h]
  obtain ⟨a1, _, rfl, ha1, hseen⟩ := SeenAs.cons_inv hseen
  obtain ⟨a2, _, rfl, ha2, hseen⟩ := SeenAs.cons_inv hseen
  obtain ⟨a3, _, rfl, ha3, hseen⟩ := SeenAs.cons_inv hseen
  obtain ⟨a4, _, rfl, ha4, hseen⟩ := SeenAs.cons_inv hseen
  obtain ⟨a5, _, rfl, ha5, hseen⟩ := SeenAs.cons_inv hseen
  have k1 : a1.key = s.manager := ha1.key
  have k3 : a3.key = (fc.findFee mint).1 := ha3.key
  have k4 : a4.key = mint := ha4.key
  have k5 : a5.key = fc.stateId := ha5.key
  have s1 := ha1.signer rfl
  have w2 := ha2.writable rfl
  have w3 := ha3.writable rfl
  simp only [flatProcess, flatRemoveLst, readState, bind_ok, okOr_ok, checkKeys_ok, checkWritable_ok, checkSigner_ok, require_ok, exists_const, k1, k3, k4,
    k5, pure_ok, hs, Prod.mk.injEq]
  exact ⟨none, _, ⟨s, ⟨trivial, rfl⟩, by simp, by simp [w2, w3], by simp [s1], rfl⟩, rfl, rfl⟩

/-- C58, `set-manager`: its transaction always succeeds and hands over to the new manager, changing nothing else. -/
theorem C58_setManager {new : Pubkey} (hc : cmdSetManager fc F signer new = .ok ixs) (hr : Received ixs cs) :
    ∃ s, F.state = some s ∧ runFlatTx L F cs = .ok { F with state := some { s with manager := new } } := by
  simp only [cmdSetManager, bind_ok, fetchManaged_ok, pure_ok] at hc
  obtain ⟨s, ⟨hs, hm⟩, rfl⟩ := hc
  obtain ⟨v, seen, hseen, h⟩ := flat_single (L := L) (ix := .setManager) trivial hr F
  refine ⟨s, hs, ?_⟩
  rw [h]
  obtain ⟨a1, _, rfl, ha1, hseen⟩ := SeenAs.cons_inv hseen
  obtain ⟨a2, _, rfl, ha2, hseen⟩ := SeenAs.cons_inv hseen
  obtain ⟨a3, _, rfl, ha3, hseen⟩ := SeenAs.cons_inv hseen
  have k1 : a1.key = s.manager := ha1.key
  have k2 : a2.key = new := ha2.key
  have k3 : a3.key = fc.stateId := ha3.key
  have s1 := ha1.signer rfl
  have w3 := ha3.writable rfl
  simp only [flatProcess, flatSetManager, readState, bind_ok, okOr_ok, checkKeys_ok, checkWritable_ok, checkSigner_ok, require_ok, exists_const, k1, k2, k3,
    pure_ok, hs, Prod.mk.injEq]
  exact ⟨none, _, ⟨s, ⟨trivial, rfl⟩, by simp, by simp [w3], by simp [s1], rfl⟩, rfl, rfl⟩

/-- C58, `set-lp-withdrawal-fee`: its transaction succeeds exactly if the fee is at most 100%, and then sets it and changes nothing else. -/
theorem C58_setLpFee {bps : Nat} (hb : bps < 65536) (hc : cmdSetLpFee fc F signer bps = .ok ixs) (hr : Received ixs cs) :
    runFlatTx L F cs = .ok F' ↔ bps ≤ 10000 ∧ ∃ s, F.state = some s ∧ F' = { F with state := some { s with lpWithdrawalFeeBps := bps } } := by
  simp only [cmdSetLpFee, bind_ok, fetchManaged_ok, pure_ok] at hc
  obtain ⟨s, ⟨hs, hm⟩, rfl⟩ := hc
  obtain ⟨v, seen, hseen, h⟩ := flat_single (L := L) (ix := .setLpWithdrawalFee bps) hb hr F
  rw [h]
  obtain ⟨a1, _, rfl, ha1, hseen⟩ := SeenAs.cons_inv hseen
  obtain ⟨a2, _, rfl, ha2, hseen⟩ := SeenAs.cons_inv hseen
  have k1 : a1.key = s.manager := ha1.key
  have k2 : a2.key = fc.stateId := ha2.key
  have s1 := ha1.signer rfl
  have w2 := ha2.writable rfl
  simp only [flatProcess, flatSetLpFee, readState, bind_ok, okOr_ok, checkKeys_ok, checkWritable_ok, checkSigner_ok, require_ok, exists_const, k1, k2,
    pure_ok, hs, Prod.mk.injEq, verifyUnsignedFee_ok]
  constructor
  · rintro ⟨_, _, ⟨s', ⟨_, h0⟩, _, _, _, h1, rfl⟩, rfl, _⟩
    injection h0 with h0; subst h0
    exact ⟨h1, s, rfl, rfl⟩
  · rintro ⟨h1, s', h0, rfl⟩
    injection h0 with h0; subst h0
    exact ⟨none, _, ⟨s, ⟨trivial, rfl⟩, by simp, by simp [w2], by simp [s1], h1, rfl⟩, rfl, rfl⟩

/-- C58, `initialize`: its transaction succeeds exactly if the program has no state yet. -/
theorem C58_initialize {payer : Pubkey} (hr : Received (cmdInitialize fc payer) cs) :
    runFlatTx L F cs = .ok F' ↔ F.state = none ∧ F' = { F with state := some ⟨fc.initialManager, 5⟩ } := by
  obtain ⟨v, seen, hseen, h⟩ := flat_single (L := L) (ix := .initialize) trivial hr F
  rw [h]
  obtain ⟨a1, _, rfl, ha1, hseen⟩ := SeenAs.cons_inv hseen
  obtain ⟨a2, _, rfl, ha2, hseen⟩ := SeenAs.cons_inv hseen
  obtain ⟨a3, _, rfl, ha3, hseen⟩ := SeenAs.cons_inv hseen
  have k2 : a2.key = fc.stateId := ha2.key
  have k3 : a3.key = fc.systemProgram := ha3.key
  have s1 := ha1.signer rfl
  have w1 := ha1.writable rfl
  have w2 := ha2.writable rfl
  simp only [flatProcess, flatInitialize, bind_ok, checkKeys_ok, checkWritable_ok, checkSigner_ok, require_ok, exists_const, k2, k3,
    pure_ok, Prod.mk.injEq]
  constructor
  · rintro ⟨_, _, ⟨_, _, _, h1, rfl⟩, rfl, _⟩; exact ⟨h1, rfl⟩
  · rintro ⟨h1, rfl⟩; exact ⟨none, _, ⟨by simp, by simp [w1, w2], by simp [s1], h1, rfl⟩, rfl, rfl⟩

/-! `batch-set-fees` -/

theorem batch_run {s : FlatState} {i o : Int} (hi : I16 i) (ho : I16 o) :
    ∀ (l : List (Pubkey × FeeAccount)) (F : FlatFee) (cs : List (FlatCall fc)), (l.map Prod.fst).Nodup → F.state = some s →
      (∀ x ∈ l, F.fees x.1 = some x.2) → Received (l.map fun x => setLstFeeIx fc s.manager x.1 i o) cs →
      ∀ F', runFlatTx L F cs = .ok F' ↔ (l ≠ [] → BpsBound i ∧ BpsBound o) ∧
        F' = { F with fees := fun k => if k ∈ l.map Prod.fst then (F.fees k).map fun f => { f with inputFeeBps := i, outputFeeBps := o } else F.fees k } := by
  intro l
  induction l with
  | nil =>
    intro F cs _ hs _ hr F'
    obtain rfl := received_nil hr
    simp only [runFlatTx, Except.ok.injEq, ne_eq, not_true, false_implies, true_and, List.map_nil, List.not_mem_nil, if_false]
    exact eq_comm
  | cons x l ih =>
    intro F cs hnd hs hl hr F'
    obtain ⟨c, cs, rfl, hseen, hd, hr⟩ := received_cons hr
    simp only [List.map_cons, List.nodup_cons] at hnd
    have hx := hl x (List.mem_cons_self ..)
    have hrun : ∀ F', flatSetLstFee c.view F c.accs i o = .ok F' ↔ _ := fun F' => setLstFee_run (F' := F') hs rfl hx hseen
    simp only [runFlatTx, flat_one (ix := .setLstFee i o) ⟨hi, ho⟩ hd, flatProcess, bind_ok, pure_ok, Prod.exists, Prod.mk.injEq]
    have hsame : ∀ y ∈ l, (upd F.fees x.1 (some { x.2 with inputFeeBps := i, outputFeeBps := o })) y.1 = some y.2 := by
      intro y hy
      have hne : y.1 ≠ x.1 := fun h => hnd.1 (h ▸ List.mem_map_of_mem hy)
      rw [upd, if_neg hne]
      exact hl y (List.mem_cons_of_mem _ hy)
    have h2 := ih { F with fees := upd F.fees x.1 (some { x.2 with inputFeeBps := i, outputFeeBps := o }) } cs hnd.2 hs hsame hr F'
    have hfees : (fun k => if k ∈ l.map Prod.fst then (upd F.fees x.1 (some { x.2 with inputFeeBps := i, outputFeeBps := o }) k).map
          fun f => { f with inputFeeBps := i, outputFeeBps := o } else upd F.fees x.1 (some { x.2 with inputFeeBps := i, outputFeeBps := o }) k) =
        fun k => if k ∈ (x :: l).map Prod.fst then (F.fees k).map fun f => { f with inputFeeBps := i, outputFeeBps := o } else F.fees k := by
      funext k
      by_cases hk : k = x.1
      · subst hk
        simp [hnd.1, upd, hx]
      · simp only [List.map_cons, List.mem_cons, hk, false_or, upd, if_false]
    simp only [hfees] at h2
    constructor
    · rintro ⟨F1, _, ⟨F2, h1, rfl, _⟩, h3⟩
      obtain ⟨hb1, hb2, rfl⟩ := (hrun _).1 h1
      obtain ⟨_, h3⟩ := h2.1 h3
      exact ⟨fun _ => ⟨hb1, hb2⟩, h3⟩
    · rintro ⟨hb, hF'⟩
      obtain ⟨hb1, hb2⟩ := hb (by simp)
      exact ⟨_, none, ⟨_, (hrun _).2 ⟨hb1, hb2, rfl⟩, rfl, rfl⟩, h2.2 ⟨fun _ => ⟨hb1, hb2⟩, hF'⟩⟩

theorem fees_mapM (l : List (Pubkey × FlatData)) (h : ∀ x ∈ l, ∃ f, x.2 = .fee f) :
    ∃ fs : List (Pubkey × FeeAccount), (l.mapM fun x => do let f ← x.2.asFee; pure (x.1, f) : R (List (Pubkey × FeeAccount))) = .ok fs ∧
      l = fs.map fun x => (x.1, FlatData.fee x.2) := by
  induction l with
  | nil => exact ⟨[], rfl, rfl⟩
  | cons x l ih =>
    obtain ⟨fs, h1, h2⟩ := ih fun y hy => h y (List.mem_cons_of_mem _ hy)
    obtain ⟨f, hf⟩ := h x (List.mem_cons_self ..)
    refine ⟨(x.1, f) :: fs, ?_, ?_⟩
    · rw [List.mapM_cons, h1, hf]; rfl
    · rw [List.map_cons, ← h2, ← hf]

theorem erase_first {α : Type} {p : α → Bool} (l : List α) {x : α} (hx : l.find? p = some x) :
    ∃ l1 l2, l = l1 ++ x :: l2 ∧ l.eraseIdx (l.findIdx p) = l1 ++ l2 := by
  induction l with
  | nil => cases hx
  | cons a l ih =>
    by_cases ha : p a
    · simp only [List.find?_cons, ha] at hx
      injection hx with hx; subst hx
      exact ⟨[], l, rfl, by simp [List.findIdx_cons, ha]⟩
    · simp only [List.find?_cons, ha] at hx
      obtain ⟨l1, l2, h1, h2⟩ := ih hx
      exact ⟨a :: l1, l2, by rw [h1]; rfl, by simp [List.findIdx_cons, ha, h2]⟩

theorem batch_cmd {accs : List (Pubkey × FlatData)} {s : FlatState} {i o : Int} (ha : Accounts fc F accs) (hs : F.state = some s) :
    ∃ l : List (Pubkey × FeeAccount), (l.map Prod.fst).Nodup ∧ (∀ k f, (k, f) ∈ l ↔ F.fees k = some f ∧ (f.inputFeeBps ≠ i ∨ f.outputFeeBps ≠ o)) ∧
      cmdBatchSetFees fc accs i o = .ok (l.map fun x => setLstFeeIx fc s.manager x.1 i o) := by
  have hmem : (fc.stateId, FlatData.state s) ∈ accs := (ha.state _ _).2 ⟨rfl, hs⟩
  obtain ⟨x, hx⟩ : ∃ x, accs.find? (fun x => x.1 = fc.stateId) = some x := by
    cases h : accs.find? (fun x => decide (x.1 = fc.stateId)) with
    | some x => exact ⟨x, rfl⟩
    | none =>
      have := List.find?_eq_none.1 h _ hmem
      simp at this
  have hxk : x.1 = fc.stateId := by simpa using List.find?_some hx
  have hxm := List.mem_of_find?_eq_some hx
  have hxe : x = (fc.stateId, FlatData.state s) := by
    have := List.inj_on_of_nodup_map ha.once hxm hmem hxk
    exact this
  obtain ⟨l1, l2, h1, h2⟩ := erase_first accs hx
  have hnd := ha.once
  rw [h1, List.map_append, List.map_cons] at hnd
  have hnd' : ((l1 ++ l2).map Prod.fst).Nodup := by
    rw [List.map_append]
    exact hnd.sublist (List.Sublist.append_left (List.sublist_cons_self _ _) _)
  have hnotin : x.1 ∉ (l1 ++ l2).map Prod.fst := by
    rw [List.map_append]
    exact (List.nodup_middle.1 hnd |> List.nodup_cons.1).1
  obtain ⟨fs, h3, h4⟩ := fees_mapM (l1 ++ l2) (by
    intro y hy
    cases hd : y.2 with
    | fee f => exact ⟨f, rfl⟩
    | state s' =>
      exfalso
      have hy' : (y.1, FlatData.state s') ∈ accs := by
        rw [h1, ← hd]
        simp only [List.mem_append, List.mem_cons] at hy ⊢
        rcases hy with hy | hy
        · exact .inl hy
        · exact .inr (.inr hy)
      have := ((ha.state _ _).1 hy').1
      exact hnotin (by rw [hxk, ← this]; exact List.mem_map_of_mem hy))
  refine ⟨fs.filter fun x => x.2.inputFeeBps ≠ i ∨ x.2.outputFeeBps ≠ o, ?_, ?_, ?_⟩
  · rw [h4, List.map_map] at hnd'
    exact (hnd'.sublist (List.Sublist.map _ (List.filter_sublist)))
  · intro k f
    rw [List.mem_filter, ← ha.fee]
    have hin : (k, f) ∈ fs ↔ (k, FlatData.fee f) ∈ accs := by
      have e1 : (k, f) ∈ fs ↔ (k, FlatData.fee f) ∈ l1 ++ l2 := by
        rw [h4, List.mem_map]
        constructor
        · intro h; exact ⟨_, h, rfl⟩
        · rintro ⟨⟨k', f'⟩, h, e⟩
          simp only [Prod.mk.injEq, FlatData.fee.injEq] at e
          obtain ⟨rfl, rfl⟩ := e
          exact h
      rw [e1, h1]
      simp only [List.mem_append, List.mem_cons, hxe, Prod.mk.injEq, reduceCtorEq, and_false, false_or]
    rw [hin]
    simp
  · simp only [cmdBatchSetFees, hx, okOr, bind, Except.bind]
    rw [h2]
    simp only [hxe, FlatData.asState]
    simp only [bind, Except.bind] at h3
    rw [h3]
    rfl

/-- C58, `batch-set-fees`, what it sends: instructions of the flat-fee program that only the manager has to sign, writing to no other accounts than fee
accounts whose fees differ from the given ones. -/
theorem C58_batch_touches {accs : List (Pubkey × FlatData)} {s : FlatState} {i o : Int} (ha : Accounts fc F accs) (hs : F.state = some s) :
    ∃ ixs, cmdBatchSetFees fc accs i o = .ok ixs ∧ ∀ ix ∈ ixs, ix.program = fc.programId ∧ ∀ a ∈ ix.accs,
      (a.signer = true → a.key = s.manager) ∧ (a.writable = true → ∃ f, F.fees a.key = some f ∧ (f.inputFeeBps ≠ i ∨ f.outputFeeBps ≠ o)) := by
  obtain ⟨l, _, hl, hc⟩ := batch_cmd (i := i) (o := o) ha hs
  refine ⟨_, hc, ?_⟩
  intro ix hix
  obtain ⟨⟨k, f⟩, hx, rfl⟩ := List.mem_map.1 hix
  refine ⟨rfl, fun a hmem => ?_⟩
  simp only [setLstFeeIx, List.mem_cons, List.not_mem_nil, or_false] at hmem
  rcases hmem with rfl | rfl | rfl
  · exact ⟨fun _ => rfl, fun h => (by cases h)⟩
  · exact ⟨fun h => (by cases h), fun _ => ⟨f, (hl k f).1 hx⟩⟩
  · exact ⟨fun h => (by cases h), fun h => (by cases h)⟩

/-- C58, `batch-set-fees`, its effect: the transaction succeeds exactly if the fees are within ±100% (or there is no fee account), and then every fee
account has them, and nothing else has changed. -/
theorem C58_batch {accs : List (Pubkey × FlatData)} {i o : Int} {hist : List (FlatCall fc)} (hF : F = flatHistory L hist) (hi : I16 i) (ho : I16 o)
    (ha : Accounts fc F accs) (hs : F.state ≠ none) (hc : cmdBatchSetFees fc accs i o = .ok ixs) (hr : Received ixs cs) :
    runFlatTx L F cs = .ok F' ↔ ((∃ k, F.fees k ≠ none) → BpsBound i ∧ BpsBound o) ∧ F' = F.allAt i o := by
  obtain ⟨s, hs⟩ := Option.ne_none_iff_exists'.1 hs
  obtain ⟨l, hnd, hl, hc'⟩ := batch_cmd (i := i) (o := o) ha hs
  rw [hc'] at hc
  injection hc with hc; subst hc
  rw [batch_run hi ho l F cs hnd hs (fun x hx => ((hl x.1 x.2).1 hx).1) hr F']
  have hall : ({ F with fees := fun k => if k ∈ l.map Prod.fst then (F.fees k).map fun f => { f with inputFeeBps := i, outputFeeBps := o } else F.fees k } :
      FlatFee) = F.allAt i o := by
    unfold FlatFee.allAt
    congr 1
    funext k
    split
    · rfl
    · rename_i hk
      cases hf : F.fees k with
      | none => rfl
      | some f =>
        by_cases hd : f.inputFeeBps ≠ i ∨ f.outputFeeBps ≠ o
        · exact absurd (List.mem_map_of_mem (f := Prod.fst) ((hl k f).2 ⟨hf, hd⟩)) hk
        · simp only [ne_eq, not_or, not_not] at hd
          obtain ⟨rfl, rfl⟩ := hd
          rfl
  rw [hall]
  refine and_congr_left fun _ => ?_
  constructor
  · intro h ⟨k, hk⟩
    obtain ⟨f, hf⟩ := Option.ne_none_iff_exists'.1 hk
    by_cases hd : f.inputFeeBps ≠ i ∨ f.outputFeeBps ≠ o
    · exact h (List.ne_nil_of_mem ((hl k f).2 ⟨hf, hd⟩))
    · simp only [ne_eq, not_or, not_not] at hd
      have hb := C26_bounds (L := L) hist
      rw [← hF] at hb
      have := hb.fee k f hf
      rw [hd.1, hd.2] at this
      exact this
  · intro h hne
    obtain ⟨⟨k, f⟩, hx⟩ := List.exists_mem_of_ne_nil _ hne
    exact h ⟨k, by rw [((hl k f).1 hx).1]; simp⟩

end

/-! ### Concretely

After `Ex.fhist` the manager is 305 and LSTs 21 and 22 have fee accounts, at (30, 20) and (40, -10). -/
namespace Ex

def flat : FlatFee := flatHistory .ex fhist

theorem flat_state : flat.state = some ⟨305, 25⟩ := by decide +kernel

theorem flat_fees : flat.fees = upd (upd (upd (fun _ => none) 1021 (some ⟨254, 30, 20⟩)) 1022 (some ⟨254, 10, -5⟩)) 1022 (some ⟨254, 40, -10⟩) := by
  rfl

def progAccs : List (Pubkey × FlatData) := [(1022, .fee ⟨254, 40, -10⟩), (300, .state ⟨305, 25⟩), (1021, .fee ⟨254, 30, 20⟩)]

theorem progAccs_ok : Accounts fc flat progAccs where
  once := by decide
  state k s := by
    rw [flat_state]
    simp only [progAccs, List.mem_cons, Prod.mk.injEq, reduceCtorEq, and_false, FlatData.state.injEq, List.not_mem_nil, false_or, or_false, Option.some.injEq]
    exact and_congr_right fun _ => eq_comm
  fee k f := by
    rw [flat_fees]
    simp only [progAccs, List.mem_cons, Prod.mk.injEq, reduceCtorEq, and_false, FlatData.fee.injEq, List.not_mem_nil, false_or, or_false, upd]
    by_cases h1 : k = 1022
    · subst h1
      simp [eq_comm]
    · by_cases h2 : k = 1021
      · subst h2; simp [eq_comm]
      · simp [h1, h2]

/-- Only LST 22 has other fees than (30, 20): one instruction, and both end at (30, 20). -/
example : (cmdBatchSetFees fc progAccs 30 20).toOption = some [⟨fc.programId, [sgMeta 305, wrMeta 1022, roMeta 300], (FlatIx.setLstFee 30 20).encode⟩] := by
  decide +kernel

def sent (r : R (List TopIx)) : List (FlatCall fc) := (r.toOption.getD []).map fun ix => ⟨fview, ix.accs, ix.data⟩

theorem sent_received {r : R (List TopIx)} {ixs : List TopIx} (h : r = .ok ixs) : Received ixs (sent r) := by
  subst h
  simp only [sent, Except.toOption, Option.getD_some]
  induction ixs with
  | nil => exact .nil
  | cons a l ih => exact .cons ⟨SeenAs.refl _, rfl⟩ ih

/-- All hypotheses of `C58_batch` hold, with (7, -3) as the fees: both fee accounts change. -/
example : runFlatTx .ex flat (sent (cmdBatchSetFees fc progAccs 7 (-3))) = .ok (flat.allAt 7 (-3)) := by
  obtain ⟨ixs, h, _⟩ := C58_batch_touches (i := 7) (o := -3) progAccs_ok flat_state
  exact (C58_batch (hist := fhist) rfl ⟨by decide, by decide⟩ ⟨by decide, by decide⟩ progAccs_ok (by rw [show (flatHistory .ex fhist).state = _ from flat_state]; simp) h (sent_received h)).2
    ⟨fun _ => ⟨⟨by decide, by decide⟩, ⟨by decide, by decide⟩⟩, rfl⟩

/-- The other commands: the manager sets the fees of LST 22 and removes LST 21; another key is refused; fees over 100% are refused by the program. -/
example : ((runFlatTx .ex flat (sent (cmdSetLstFee fc flat 305 22 1 2))).toOption.map fun F => (F.feesOf fc 21, F.feesOf fc 22)) =
      some (some ⟨254, 30, 20⟩, some ⟨254, 1, 2⟩) ∧
    ((runFlatTx .ex flat (sent (cmdRemoveLst fc flat 305 40 21))).toOption.map fun F => (F.feesOf fc 21, F.feesOf fc 22)) =
      some (none, some ⟨254, 40, -10⟩) ∧
    ((runFlatTx .ex flat (sent (cmdRemoveLst fc flat 305 40 21 )) >>= fun F => runFlatTx .ex F (sent (cmdAddLst fc F 305 40 21 5 6))).toOption.map
      fun F => (F.feesOf fc 21, F.feesOf fc 22)) = some (some ⟨254, 5, 6⟩, some ⟨254, 40, -10⟩) ∧
    (cmdSetLstFee fc flat 301 22 1 2).toOption = none ∧
    ((runFlatTx .ex flat (sent (cmdSetLstFee fc flat 305 22 1 10001))).toOption.map fun F => F.feesOf fc 22) = none ∧
    ((runFlatTx .ex flat (sent (cmdSetManager fc flat 305 306))).toOption.map FlatFee.state) = some (some ⟨306, 25⟩) ∧
    ((runFlatTx .ex flat (sent (cmdSetLpFee fc flat 305 10000))).toOption.map FlatFee.state) = some (some ⟨305, 10000⟩) := by decide +kernel

end Ex

end S
