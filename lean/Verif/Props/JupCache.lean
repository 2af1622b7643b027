import Verif.JupExample
import Verif.Jup
import Verif.Proofs.Small
/-
C45: the off-chain cache stays aligned with the LST list.
-/
set_option autoImplicit false
namespace S

/-! ### What a holder of the cache can do -/

/-- The public functions that change an `SPool`, each with any account map, and the shared epoch changing. -/
inductive JupOp
  | full (m : AccMap)
  | data (m : AccMap)
  | pricing (m : AccMap)
  | list (m : AccMap)
  | pool (m : AccMap)
  | supply (m : AccMap)
  | epoch (e : Nat)

def JupOp.run (J : JupCfg) (S : SPool) : JupOp → SPool × R Unit
  | .full m => S.updateFull J m
  | .data m => S.updateData J m
  | .pricing m => S.updatePricing J m
  | .list m => S.updateList J m
  | .pool m => S.updatePool J m
  | .supply m => S.updateSupply J m
  | .epoch e => ({ S with epoch := e }, .ok ())

/-- Running operations in order, whatever they return. -/
def SPool.after (J : JupCfg) (S : SPool) (ops : List JupOp) : SPool := ops.foldl (fun S o => (o.run J S).1) S

/-- The three ways to make an `SPool`. -/
inductive JupInit (J : JupCfg) (list : List SanctumLst) : SPool → Prop
  | list {e b S} : SPool.fromList J list e b = .ok S → JupInit J list S
  | init {e b p S} : SPool.fromInit J list e b p = .ok S → JupInit J list S
  | keyed {e k b S} : SPool.fromKeyed J list e k b = .ok S → JupInit J list S

/-- The Sanctum LST list gives Lido, Marinade and the reserve pool only to their own tokens. -/
def GoodList (J : JupCfg) (list : List SanctumLst) : Prop :=
  ∀ e ∈ list, (e.pool = .lido → e.mint = J.lidoMint) ∧ (e.pool = .marinade → e.mint = J.msolMint) ∧
    (e.pool = .reservePool → e.mint = J.wsolMint)

/-- The cache belongs to the list: one slot per listed LST, and each filled slot is for that LST's mint and calculator program. -/
def SPool.Aligned (J : JupCfg) (S : SPool) : Prop :=
  ∃ lsts, S.lstList.lsts = .ok lsts ∧ S.data.length = lsts.length ∧
    ∀ (i : Nat) (s : LstState) (d : LstData), lsts[i]? = some s → S.data[i]? = some (some d) →
      d.solCalc.lstMint J = s.mint ∧ d.solCalc.programId J = s.solValueCalculator

/-- `c` reads the stake pool that the Sanctum list entry names. -/
def KnownCalc.Of (e : SanctumLst) : KnownCalc → Prop
  | .lido _ => e.pool = .lido
  | .marinade _ => e.pool = .marinade
  | .wsol => e.pool = .reservePool
  | .spl k m p _ => e.pool = .spl k p ∧ m = e.mint

/-- Every filled slot has the token program and the stake pool of the (first) Sanctum list entry of its mint. -/
def SPool.FromList (J : JupCfg) (list : List SanctumLst) (S : SPool) : Prop :=
  ∀ d, some d ∈ S.data → ∃ e, list.find? (fun e => e.mint = d.solCalc.lstMint J) = some e ∧
    d.tokenProgram = e.tokenProgram ∧ d.solCalc.Of e

/-! ### Proofs -/

theorem KnownCalc.load_same (J : JupCfg) {b : Blob} {k k' : KnownCalc} (h : k.load b = .ok k') :
    k'.lstMint J = k.lstMint J ∧ k'.programId J = k.programId J ∧ ∀ e, k.Of e → k'.Of e := by
  cases k <;> simp only [KnownCalc.load, bind_ok, pure_ok, require_ok, Prod.exists, exists_const] at h
  · obtain ⟨_, _, rfl⟩ := h; exact ⟨rfl, rfl, fun _ h => h⟩
  · obtain ⟨_, _, rfl⟩ := h; exact ⟨rfl, rfl, fun _ h => h⟩
  · subst h; exact ⟨rfl, rfl, fun _ h => h⟩
  · obtain ⟨_, _, _, _, rfl⟩ := h; exact ⟨rfl, rfl, fun _ h => h⟩

theorem KnownCalc.update_same (J : JupCfg) (m : AccMap) (k : KnownCalc) :
    (k.update J m).1.lstMint J = k.lstMint J ∧ (k.update J m).1.programId J = k.programId J ∧
      ∀ e, k.Of e → (k.update J m).1.Of e := by
  unfold KnownCalc.update
  split
  · exact ⟨rfl, rfl, fun _ h => h⟩
  · split
    · exact ⟨rfl, rfl, fun _ h => h⟩
    · split
      · exact ⟨rfl, rfl, fun _ h => h⟩
      · exact load_same J (by assumption)

/-- A slot after an update is for the same token. -/
def SameSlot (J : JupCfg) (list : List SanctumLst) (d d' : LstData) : Prop :=
  d'.solCalc.lstMint J = d.solCalc.lstMint J ∧ d'.solCalc.programId J = d.solCalc.programId J ∧
    d'.tokenProgram = d.tokenProgram ∧ ∀ e ∈ list, d.solCalc.Of e → d'.solCalc.Of e

theorem updateSlot_some (J : JupCfg) (list : List SanctumLst) (m : AccMap) (S : SPool) (i : Nat) {o : Option LstData} {d' : LstData}
    (h : (S.updateSlot J m i o).1 = some d') : ∃ d, o = some d ∧ SameSlot J list d d' := by
  cases o with
  | none => simp [SPool.updateSlot] at h
  | some d =>
    refine ⟨d, rfl, ?_⟩
    simp only [SPool.updateSlot] at h
    split at h
    · simp only [Option.some.injEq] at h; subst h; exact ⟨rfl, rfl, rfl, fun _ _ h => h⟩
    · split at h
      · simp only [Option.some.injEq] at h; subst h; exact ⟨rfl, rfl, rfl, fun _ _ h => h⟩
      · simp only [Option.some.injEq] at h; subst h
        obtain ⟨a, b, c⟩ := KnownCalc.update_same J m d.solCalc
        exact ⟨a, b, rfl, fun e _ h => c e h⟩

/-- The invariant kept by every operation. -/
structure CacheInv (J : JupCfg) (list : List SanctumLst) (S : SPool) : Prop where
  aligned : S.Aligned J
  from_list : S.FromList J list

theorem updateData_get (J : JupCfg) (m : AccMap) (S : SPool) (i : Nat) :
    (S.updateData J m).1.data[i]? = (S.data[i]?).map fun d => (S.updateSlot J m i d).1 := by
  simp [SPool.updateData, List.getElem?_mapIdx, Option.map_map, Function.comp_def]

theorem updateData_inv {J : JupCfg} {list : List SanctumLst} {S : SPool} (m : AccMap) (h : CacheInv J list S) :
    CacheInv J list (S.updateData J m).1 := by
  obtain ⟨⟨lsts, hl, hn, ha⟩, hf⟩ := h
  have key : ∀ {i : Nat} {d' : LstData}, (S.updateData J m).1.data[i]? = some (some d') →
      ∃ d, S.data[i]? = some (some d) ∧ SameSlot J list d d' := by
    intro i d' h
    rw [updateData_get] at h
    simp only [Option.map_eq_some_iff] at h
    obtain ⟨o, ho, h⟩ := h
    obtain ⟨d, rfl, hs⟩ := updateSlot_some J list m S i h
    exact ⟨d, ho, hs⟩
  refine ⟨⟨lsts, hl, by simpa [SPool.updateData] using hn, ?_⟩, ?_⟩
  · intro i s d' hs hd
    obtain ⟨d, hd, hs'⟩ := key hd
    obtain ⟨h1, h2⟩ := ha i s d hs hd
    exact ⟨hs'.1.trans h1, hs'.2.1.trans h2⟩
  · intro d' hd'
    obtain ⟨i, hi⟩ := List.mem_iff_getElem?.1 hd'
    obtain ⟨d, hd, h1, h2, h3, h4⟩ := key hi
    obtain ⟨e, he, ht, ho⟩ := hf d (List.mem_iff_getElem?.2 ⟨i, hd⟩)
    exact ⟨e, by rw [h1]; exact he, h3.trans ht, h4 e (List.mem_of_find?_eq_some he) ho⟩

theorem updatePricing_keeps (J : JupCfg) (m : AccMap) (S : SPool) :
    (S.updatePricing J m).1.lstList = S.lstList ∧ (S.updatePricing J m).1.data = S.data := by
  unfold SPool.updatePricing; split <;> exact ⟨rfl, rfl⟩

theorem updateSupply_keeps (J : JupCfg) (m : AccMap) (S : SPool) :
    (S.updateSupply J m).1.lstList = S.lstList ∧ (S.updateSupply J m).1.data = S.data := by
  unfold SPool.updateSupply
  repeat' first | exact ⟨rfl, rfl⟩ | split

theorem updatePool_keeps (J : JupCfg) (m : AccMap) (S : SPool) :
    (S.updatePool J m).1.lstList = S.lstList ∧ (S.updatePool J m).1.data = S.data := by
  unfold SPool.updatePool
  repeat' first | exact ⟨rfl, rfl⟩ | split

theorem CacheInv.keeps {J : JupCfg} {list : List SanctumLst} {S T : SPool} (h : CacheInv J list S) (hl : T.lstList = S.lstList)
    (hd : T.data = S.data) : CacheInv J list T := by
  obtain ⟨⟨lsts, h1, h2, h3⟩, h4⟩ := h
  exact ⟨⟨lsts, by rw [hl]; exact h1, by rw [hd]; exact h2, by rw [hd]; exact h3⟩, by unfold SPool.FromList; rw [hd]; exact h4⟩

theorem newData_length (J : JupCfg) (old : List (Option LstData)) (zs : List (LstState × Option LstData)) (new : List LstState) :
    (newData J old zs new).length = new.length := by
  induction new generalizing zs with
  | nil => cases zs <;> rfl
  | cons n new ih => cases zs <;> simp [newData, ih]

theorem newData_get (J : JupCfg) (old : List (Option LstData)) (zs : List (LstState × Option LstData)) (new : List LstState)
    (i : Nat) :
    (newData J old zs new)[i]? = (new[i]?).map fun n => match zs[i]? with
      | none => none
      | some (s, d) => replaceSlot J old s d n := by
  induction new generalizing zs i with
  | nil => cases zs <;> simp [newData]
  | cons n new ih =>
    cases zs with
    | nil => cases i with
      | zero => simp [newData]
      | succ i => simpa [newData] using ih [] i
    | cons z zs =>
      obtain ⟨s, d⟩ := z
      cases i with
      | zero => simp [newData]
      | succ i => simpa [newData] using ih zs i

theorem sameLsts_iff {a b : List LstState} : sameLsts a b = true ↔ a.length = b.length ∧
    ∀ (i : Nat) (x y : LstState), a[i]? = some x → b[i]? = some y → x.mint = y.mint ∧ x.solValueCalculator = y.solValueCalculator := by
  simp only [sameLsts, Bool.and_eq_true, beq_iff_eq, List.all_eq_true, decide_eq_true_eq]
  refine and_congr_right fun hl => ⟨fun h i x y hx hy => ?_, fun h e he => ?_⟩
  · have : (a.zip b)[i]? = some (x, y) := by rw [List.getElem?_zip_eq_some]; exact ⟨hx, hy⟩
    exact h (x, y) (List.mem_iff_getElem?.2 ⟨i, this⟩)
  · obtain ⟨i, hi⟩ := List.mem_iff_getElem?.1 he
    obtain ⟨x, y⟩ := e
    rw [List.getElem?_zip_eq_some] at hi
    exact h i x y hi.1 hi.2

/-- The outcomes of `update_lst_state_list`. -/
theorem updateList_cases (J : JupCfg) (m : AccMap) (S : SPool) :
    (S.updateList J m).1 = S ∨ ∃ b old new, m J.cfg.lstStateList = some b ∧ S.lstList.lsts = .ok old ∧ b.lsts = .ok new ∧
      (S.updateList J m).2 = .ok () ∧
      ((sameLsts old new = true ∧ (S.updateList J m).1 = { S with lstList := b }) ∨
       (sameLsts old new = false ∧ (S.updateList J m).1 = { S with lstList := b, data := newData J S.data (old.zip S.data) new })) := by
  unfold SPool.updateList
  split
  · exact .inl rfl
  · rename_i b hb
    split
    · exact .inl rfl
    · rename_i old ho
      split
      · exact .inl rfl
      · rename_i new hn
        refine .inr ⟨b, old, new, hb, ho, hn, ?_⟩
        split
        · rename_i h; exact ⟨rfl, .inl ⟨h, rfl⟩⟩
        · rename_i h; exact ⟨rfl, .inr ⟨by simpa using h, rfl⟩⟩

theorem replaceSlot_some {J : JupCfg} {old : List (Option LstData)} {s n : LstState} {o : Option LstData} {d : LstData}
    (ho : o ∈ old) (hs : ∀ d, o = some d → d.solCalc.lstMint J = s.mint) (h : replaceSlot J old s o n = some d) :
    some d ∈ old ∧ d.solCalc.lstMint J = n.mint ∧ d.solCalc.programId J = n.solValueCalculator := by
  unfold replaceSlot at h
  split at h
  · rw [Option.join_eq_some_iff] at h
    have hp := List.find?_some h
    exact ⟨List.mem_of_find?_eq_some h, by simpa using hp⟩
  · rename_i hm
    simp only [ne_eq, Decidable.not_not] at hm
    simp only [Option.bind_eq_some_iff] at h
    obtain ⟨d0, rfl, h⟩ := h
    split at h
    · rename_i hp
      simp only [Option.some.injEq] at h; subst h
      exact ⟨ho, (hs d0 rfl).trans hm, hp⟩
    · exact absurd h (by simp)

theorem updateList_inv {J : JupCfg} {list : List SanctumLst} {S : SPool} (m : AccMap) (h : CacheInv J list S) :
    CacheInv J list (S.updateList J m).1 := by
  obtain h0 | ⟨b, old, new, _, ho, hn, _, ⟨hsame, h0⟩ | ⟨_, h0⟩⟩ := updateList_cases J m S
  · rw [h0]; exact h
  · rw [h0]
    obtain ⟨⟨lsts, h1, h2, h3⟩, h4⟩ := h
    have e : lsts = old := by rw [h1] at ho; injection ho
    subst e
    obtain ⟨hlen, hs⟩ := sameLsts_iff.1 hsame
    refine ⟨⟨new, hn, h2.trans hlen, ?_⟩, h4⟩
    intro i s d hi hd
    have : i < lsts.length := by rw [hlen]; exact (List.getElem?_eq_some_iff.1 hi).1
    have hx : lsts[i]? = some lsts[i] := List.getElem?_eq_getElem this
    obtain ⟨e1, e2⟩ := hs i _ s hx hi
    obtain ⟨f1, f2⟩ := h3 i _ d hx hd
    exact ⟨f1.trans e1, f2.trans e2⟩
  · rw [h0]
    obtain ⟨⟨lsts, h1, h2, h3⟩, h4⟩ := h
    have e : lsts = old := by rw [h1] at ho; injection ho
    subst e
    have key : ∀ {i : Nat} {d : LstData}, (newData J S.data (lsts.zip S.data) new)[i]? = some (some d) →
        ∃ n, new[i]? = some n ∧ some d ∈ S.data ∧ d.solCalc.lstMint J = n.mint ∧ d.solCalc.programId J = n.solValueCalculator := by
      intro i d hd
      rw [newData_get] at hd
      simp only [Option.map_eq_some_iff] at hd
      obtain ⟨n, hn', hd⟩ := hd
      refine ⟨n, hn', ?_⟩
      split at hd
      · cases hd
      · rename_i s o hz
        rw [List.getElem?_zip_eq_some] at hz
        refine replaceSlot_some (List.mem_iff_getElem?.2 ⟨i, hz.2⟩) ?_ hd
        rintro d0 rfl
        exact (h3 i s d0 hz.1 hz.2).1
    refine ⟨⟨new, hn, newData_length .., ?_⟩, ?_⟩
    · intro i s d hi hd
      obtain ⟨n, hn', _, e1, e2⟩ := key hd
      rw [hi] at hn'; cases hn'
      exact ⟨e1, e2⟩
    · intro d hd
      obtain ⟨i, hi⟩ := List.mem_iff_getElem?.1 hd
      exact h4 d (key hi).choose_spec.2.1

theorem JupOp.run_inv {J : JupCfg} {list : List SanctumLst} {S : SPool} (o : JupOp) (h : CacheInv J list S) :
    CacheInv J list (o.run J S).1 := by
  have hp : ∀ {S : SPool} (m : AccMap), CacheInv J list S → CacheInv J list (S.updatePricing J m).1 :=
    fun m h => h.keeps (updatePricing_keeps ..).1 (updatePricing_keeps ..).2
  have hs : ∀ {S : SPool} (m : AccMap), CacheInv J list S → CacheInv J list (S.updateSupply J m).1 :=
    fun m h => h.keeps (updateSupply_keeps ..).1 (updateSupply_keeps ..).2
  have hq : ∀ {S : SPool} (m : AccMap), CacheInv J list S → CacheInv J list (S.updatePool J m).1 :=
    fun m h => h.keeps (updatePool_keeps ..).1 (updatePool_keeps ..).2
  cases o with
  | full m => exact hs m (hq m (updateList_inv m (hp m (updateData_inv m h))))
  | data m => exact updateData_inv m h
  | pricing m => exact hp m h
  | list m => exact updateList_inv m h
  | pool m => exact hq m h
  | supply m => exact hs m h
  | epoch e => exact h.keeps rfl rfl

theorem tryLstData_some {J : JupCfg} {list : List SanctumLst} (hg : GoodList J list) {s : LstState} {d : LstData}
    (h : tryLstData J list s = some d) : ∃ e, list.find? (fun e => e.mint = s.mint) = some e ∧ d.solCalc.lstMint J = s.mint ∧
      d.solCalc.programId J = s.solValueCalculator ∧ d.tokenProgram = e.tokenProgram ∧ d.solCalc.Of e := by
  simp only [tryLstData, Option.bind_eq_bind, Option.bind_eq_some_iff] at h
  obtain ⟨e, he, c, hc, h⟩ := h
  split at h
  · cases h
  · rename_i hp
    simp only [ne_eq, Decidable.not_not] at hp
    cases h
    have hm : e.mint = s.mint := by simpa using List.find?_some he
    obtain ⟨g1, g2, g3⟩ := hg e (List.mem_of_find?_eq_some he)
    refine ⟨e, he, ?_, hp.symm, rfl, ?_⟩
    · cases hpool : e.pool <;> simp only [hpool, PoolInfo.calculator, Option.some.injEq, reduceCtorEq] at hc <;> subst hc <;>
        simp_all [KnownCalc.lstMint]
    · cases hpool : e.pool <;> simp only [hpool, PoolInfo.calculator, Option.some.injEq, reduceCtorEq] at hc <;> subst hc <;>
        simp_all [KnownCalc.Of]

theorem fromList_inv {J : JupCfg} {list : List SanctumLst} (hg : GoodList J list) {e : Nat} {b : Blob} {S : SPool}
    (h : SPool.fromList J list e b = .ok S) : CacheInv J list S := by
  simp only [SPool.fromList, bind_ok, pure_ok] at h
  obtain ⟨lsts, hl, rfl⟩ := h
  refine ⟨⟨lsts, hl, by simp, ?_⟩, ?_⟩
  · intro i s d hs hd
    simp only [List.getElem?_map, hs, Option.map_some, Option.some.injEq] at hd
    obtain ⟨_, _, h1, h2, _⟩ := tryLstData_some hg hd
    exact ⟨h1, h2⟩
  · intro d hd
    simp only [List.mem_map] at hd
    obtain ⟨s, _, hd⟩ := hd
    obtain ⟨e, h1, h2, _, h4, h5⟩ := tryLstData_some hg hd
    exact ⟨e, by rw [h2]; exact h1, h4, h5⟩

theorem JupInit.inv {J : JupCfg} {list : List SanctumLst} (hg : GoodList J list) {S : SPool} (h : JupInit J list S) :
    CacheInv J list S := by
  cases h with
  | list h => exact fromList_inv hg h
  | init h =>
    simp only [SPool.fromInit, bind_ok, pure_ok] at h
    obtain ⟨_, _, _, _, _, _, S', hS, rfl⟩ := h
    exact (fromList_inv hg hS).keeps rfl rfl
  | keyed h =>
    simp only [SPool.fromKeyed, bind_ok, require_ok, exists_const] at h
    exact fromList_inv hg h.2

theorem SPool.after_inv {J : JupCfg} {list : List SanctumLst} {S : SPool} (ops : List JupOp) (h : CacheInv J list S) :
    CacheInv J list (S.after J ops) := by
  induction ops generalizing S with
  | nil => exact h
  | cons o ops ih => exact ih (o.run_inv h)

/-- C45. However the cache was made and whatever updates were run on it, with whatever accounts, it holds one slot per listed LST and
every filled slot is for that LST's mint and calculator program. -/
theorem C45_aligned {J : JupCfg} {list : List SanctumLst} (hg : GoodList J list) {S : SPool} (h : JupInit J list S)
    (ops : List JupOp) : (S.after J ops).Aligned J :=
  (SPool.after_inv ops (h.inv hg)).aligned

/-- C45. Moreover a filled slot keeps the token program and the stake pool the Sanctum list registers for its mint. -/
theorem C45_from_list {J : JupCfg} {list : List SanctumLst} (hg : GoodList J list) {S : SPool} (h : JupInit J list S)
    (ops : List JupOp) : (S.after J ops).FromList J list :=
  (SPool.after_inv ops (h.inv hg)).from_list

/-! ### No index out of range -/

/-- A computation that does not panic. -/
def NoPanic {α : Type} (x : R α) : Prop := x ≠ .error .panic

theorem NoPanic.bind {α β : Type} {x : R α} {f : α → R β} (hx : NoPanic x) (hf : ∀ a, NoPanic (f a)) : NoPanic (x >>= f) := by
  cases x with
  | error e => intro h; exact hx (by injection h with h; rw [h])
  | ok a => exact hf a

theorem NoPanic.of_ok {α : Type} (a : α) : NoPanic (.ok a : R α) := by intro h; cases h

theorem NoPanic.require {c : Prop} [Decidable c] {e : Err} (he : e ≠ .panic) : NoPanic (require c e) := by
  unfold S.require; split
  · exact .of_ok _
  · intro h; injection h with h; exact he h

theorem NoPanic.okOr {α : Type} {o : Option α} {e : Err} (he : e ≠ .panic) : NoPanic (okOr o e) := by
  cases o with
  | none => intro h; injection h with h; exact he h
  | some a => exact .of_ok a

theorem NoPanic.andR {a b : R Unit} (ha : NoPanic a) (hb : NoPanic b) : NoPanic (andR a b) := by
  cases a with
  | error e => exact ha
  | ok _ => exact hb

theorem readLE_noPanic (k : Nat) (b : List UInt8) : NoPanic (readLE k b) := by
  unfold readLE
  repeat' first | exact .of_ok _ | (intro h; cases h; done) | split

theorem decodeFields_noPanic (fs : List Fld) (b : List UInt8) : NoPanic (decodeFields fs b) := by
  induction fs generalizing b with
  | nil => exact .of_ok _
  | cons f fs ih =>
    refine .bind ?_ fun ⟨v, b⟩ => .bind (ih b) fun _ => .of_ok _
    cases f with
    | int k => exact .bind (readLE_noPanic _ _) fun _ => .of_ok _
    | variant m => exact .bind (readLE_noPanic _ _) fun _ => .bind (.require (by decide)) fun _ => .of_ok _
    | opt k =>
      refine .bind ?_ fun _ => .of_ok _
      unfold readOpt
      repeat' first | exact .of_ok _ | exact readLE_noPanic _ _ | (intro h; cases h; done) | refine .bind (readLE_noPanic _ _) fun _ => .of_ok _ | split
    | future =>
      refine .bind (readLE_noPanic _ _) fun x => ?_
      obtain ⟨t, r⟩ := x
      dsimp only
      split
      · exact .of_ok _
      · exact .bind (.require (by decide)) fun _ => .bind (readLE_noPanic _ _) fun _ => .bind (readLE_noPanic _ _) fun _ => .of_ok _

theorem KnownCalc.update_noPanic (J : JupCfg) (m : AccMap) (k : KnownCalc) : NoPanic (k.update J m).2 := by
  unfold KnownCalc.update
  split
  · exact .of_ok _
  · split
    · exact .of_ok _
    · rename_i b _
      split
      · rename_i e he
        have : NoPanic (k.load b) := by
          cases k with
          | lido _ => exact .bind (.bind (decodeFields_noPanic _ _) fun _ => .of_ok _) fun _ => .of_ok _
          | marinade _ => exact .bind (.bind (decodeFields_noPanic _ _) fun _ => .of_ok _) fun _ => .of_ok _
          | wsol => exact .of_ok _
          | spl _ _ _ _ =>
            refine .bind ?_ fun _ => .bind (.require (by decide)) fun _ => .of_ok _
            unfold readSplPool
            split
            · intro h; cases h
            · exact .bind (.require (by decide)) fun _ => .of_ok _
        rw [he] at this
        intro h; injection h with h; subst h; exact this rfl
      · exact .of_ok _

theorem Blob.lsts_noPanic (b : Blob) : NoPanic b.lsts := by
  unfold Blob.lsts
  cases tryList lstElem b.addr b.bytes with
  | none => intro h; cases h
  | some l => exact .of_ok _

theorem Blob.pool_noPanic (b : Blob) : NoPanic b.pool := by
  unfold Blob.pool tryPoolState
  split
  · intro h; cases h
  · split
    · intro h; cases h
    · exact .of_ok _

theorem LstData.fetchReserves_noPanic {J : JupCfg} (hb : ∀ b, NoPanic (J.balance b)) (m : AccMap) (s : LstState) (d : LstData) :
    NoPanic (d.fetchReserves J m s).2 := by
  unfold LstData.fetchReserves
  split
  · rename_i e he
    have h2 : NoPanic (poolReserves J.cfg s d.tokenProgram) := .okOr (by decide)
    rw [he] at h2; exact fun h => h2 (by injection h with h; rw [h])
  · split
    · exact .of_ok _
    · rename_i b _
      split
      · rename_i e he
        have h2 := hb b
        rw [he] at h2; exact fun h => h2 (by injection h with h; rw [h])
      · exact .of_ok _

theorem updateFees_noPanic (fc : FlatCfg) (m : AccMap) (l : List (Pubkey × Option FeeAccount)) : NoPanic (updateFees fc m l).2 := by
  induction l with
  | nil => exact .of_ok _
  | cons x l ih =>
    obtain ⟨mint, fa⟩ := x
    unfold updateFees
    split
    · rename_i e he
      have h2 : NoPanic (feeAccountAddr fc mint fa) := by
        cases fa with
        | none => exact .of_ok _
        | some a => exact .okOr (by decide)
      rw [he] at h2; exact fun h => h2 (by injection h with h; rw [h])
    · split
      · exact ih
      · rename_i b _
        split
        · rename_i e he
          have h2 : NoPanic b.feeAccount := by
            unfold Blob.feeAccount
            repeat' first | exact .of_ok _ | (intro h; cases h; done) | split
          rw [he] at h2; exact fun h => h2 (by injection h with h; rw [h])
        · exact ih

theorem FlatProg.update_noPanic (fc : FlatCfg) (m : AccMap) (p : FlatProg) : NoPanic (p.update fc m).2 := by
  unfold FlatProg.update
  split
  · exact updateFees_noPanic fc m p.fees
  · rename_i b _
    split
    · rename_i e he
      have h2 : NoPanic b.flatState := by
        unfold Blob.flatState
        repeat' first | exact .of_ok _ | (intro h; cases h; done) | split
      rw [he] at h2; exact fun h => h2 (by injection h with h; rw [h])
    · exact updateFees_noPanic fc m p.fees

theorem NoPanic.foldl {l : List (R Unit)} (h : ∀ x ∈ l, NoPanic x) {a : R Unit} (ha : NoPanic a) : NoPanic (l.foldl S.andR a) := by
  induction l generalizing a with
  | nil => exact ha
  | cons x l ih => exact ih (fun y hy => h y (List.mem_cons_of_mem _ hy)) (ha.andR (h x List.mem_cons_self))

theorem updateData_noPanic {J : JupCfg} (hb : ∀ b, NoPanic (J.balance b)) (m : AccMap) {S : SPool} (h : S.Aligned J) :
    NoPanic (S.updateData J m).2 := by
  obtain ⟨lsts, hl, hn, _⟩ := h
  refine NoPanic.foldl (fun x hx => ?_) (.of_ok _)
  simp only [List.mem_map, List.mem_mapIdx] at hx
  obtain ⟨y, ⟨i, hi, rfl⟩, rfl⟩ := hx
  cases hd : S.data[i] with
  | none => exact .of_ok _
  | some d =>
    have : lsts[i]? = some lsts[i] := List.getElem?_eq_getElem (by omega)
    simp only [SPool.updateSlot, hl, this]
    exact (KnownCalc.update_noPanic _ _ _).andR (LstData.fetchReserves_noPanic hb _ _ _)

theorem updatePricing_noPanic (J : JupCfg) (m : AccMap) (S : SPool) : NoPanic (S.updatePricing J m).2 := by
  unfold SPool.updatePricing
  split
  · exact .of_ok _
  · exact FlatProg.update_noPanic _ _ _

theorem updateList_noPanic (J : JupCfg) (m : AccMap) (S : SPool) : NoPanic (S.updateList J m).2 := by
  unfold SPool.updateList
  split
  · exact .of_ok _
  · rename_i b _
    split
    · rename_i e he
      have h2 := S.lstList.lsts_noPanic
      rw [he] at h2; exact fun h => h2 (by injection h with h; rw [h])
    · split
      · rename_i e he
        have h2 := b.lsts_noPanic
        rw [he] at h2; exact fun h => h2 (by injection h with h; rw [h])
      · split <;> exact .of_ok _

theorem updateSupply_noPanic {J : JupCfg} (hs : ∀ b, NoPanic (J.supply b)) (m : AccMap) (S : SPool) :
    NoPanic (S.updateSupply J m).2 := by
  unfold SPool.updateSupply
  split
  · exact .of_ok _
  · rename_i b _
    split
    · rename_i e he
      have h2 := b.pool_noPanic
      rw [he] at h2; exact fun h => h2 (by injection h with h; rw [h])
    · split
      · exact .of_ok _
      · rename_i a _
        split
        · rename_i e he
          have h2 := hs a
          rw [he] at h2; exact fun h => h2 (by injection h with h; rw [h])
        · exact .of_ok _

theorem updatePool_noPanic (J : JupCfg) (m : AccMap) (S : SPool) : NoPanic (S.updatePool J m).2 := by
  unfold SPool.updatePool
  split
  · exact .of_ok _
  · rename_i b _
    split
    · rename_i e he
      have h2 := S.lstList.lsts_noPanic
      rw [he] at h2; exact fun h => h2 (by injection h with h; rw [h])
    · split
      · rename_i e he
        have h2 := b.pool_noPanic
        rw [he] at h2; exact fun h => h2 (by injection h with h; rw [h])
      · split
        · split
          · exact .of_ok _
          · exact FlatProg.update_noPanic _ _ _
        · exact .of_ok _

/-- C45. No update indexes past the end of the list: if the two parsers of the external crate do not panic, no operation does. -/
theorem C45_no_panic {J : JupCfg} (hb : ∀ b, NoPanic (J.balance b)) (hsup : ∀ b, NoPanic (J.supply b)) {list : List SanctumLst}
    (hg : GoodList J list) {S : SPool} (h : JupInit J list S) (ops : List JupOp) (o : JupOp) :
    (o.run J (S.after J ops)).2 ≠ .error .panic := by
  have ha := C45_aligned hg h ops
  cases o with
  | full m =>
    exact ((((updateData_noPanic hb m ha).andR (updatePricing_noPanic _ _ _)).andR (updateList_noPanic _ _ _)).andR
      (updatePool_noPanic _ _ _)).andR (updateSupply_noPanic hsup _ _)
  | data m => exact updateData_noPanic hb m ha
  | pricing m => exact updatePricing_noPanic _ _ _
  | list m => exact updateList_noPanic _ _ _
  | pool m => exact updatePool_noPanic _ _ _
  | supply m => exact updateSupply_noPanic hsup _ _
  | epoch e => exact NoPanic.of_ok _

/-! ### What an update of the list keeps -/

/-- C45. When a new list is read, every LST of the new list at a position that existed before keeps the slot it had, if the cache had a
filled slot for its mint and calculator (in particular when an entry is removed and the rest move up). -/
theorem C45_kept {J : JupCfg} {S : SPool} (ha : S.Aligned J) {m : AccMap} {b : Blob} {old new : List LstState}
    (hm : m J.cfg.lstStateList = some b) (ho : S.lstList.lsts = .ok old) (hn : b.lsts = .ok new)
    (hnd : (old.map (·.mint)).Nodup)
    {i j : Nat} {s n : LstState} {d : LstData} (hi : i < old.length) (hni : new[i]? = some n)
    (hj : old[j]? = some s) (hd : S.data[j]? = some (some d)) (e1 : s.mint = n.mint)
    (e2 : s.solValueCalculator = n.solValueCalculator) :
    (S.updateList J m).1.data[i]? = some (some d) := by
  obtain ⟨lsts, h1, h2, h3⟩ := ha
  have e : lsts = old := by rw [h1] at ho; injection ho
  subst e
  obtain ⟨d1, d2⟩ := h3 j s d hj hd
  have inj : ∀ {k : Nat} {x : LstState}, lsts[k]? = some x → x.mint = s.mint → k = j := by
    intro k x hk hx
    have hk' : (lsts.map (·.mint))[k]? = (lsts.map (·.mint))[j]? := by simp [hk, hj, hx]
    exact (List.getElem?_inj (by simpa using (List.getElem?_eq_some_iff.1 hk).1) hnd).1 hk'
  have hsi : lsts[i]? = some lsts[i] := List.getElem?_eq_getElem hi
  have hdi : ∃ o, S.data[i]? = some o := ⟨S.data[i], List.getElem?_eq_getElem (by omega)⟩
  obtain ⟨o, hdi⟩ := hdi
  simp only [SPool.updateList, hm, h1, hn]
  split
  · rename_i hs
    obtain ⟨_, hs⟩ := sameLsts_iff.1 hs
    have := hs i _ n hsi hni
    have : i = j := inj hsi (by rw [this.1, e1])
    subst this; exact hd
  · simp only [newData_get, hni, Option.map_some]
    have hz : (lsts.zip S.data)[i]? = some (lsts[i], o) := by rw [List.getElem?_zip_eq_some]; exact ⟨hsi, hdi⟩
    simp only [hz, replaceSlot]
    split
    · congr 1
      rw [Option.join_eq_some_iff]
      have hex : ∃ x, S.data.find? (fun
          | some d => decide (d.solCalc.lstMint J = n.mint ∧ d.solCalc.programId J = n.solValueCalculator)
          | none => false) = some x := by
        rw [← Option.isSome_iff_exists, List.find?_isSome]
        exact ⟨some d, List.mem_iff_getElem?.2 ⟨j, hd⟩, by simp [d1, d2, e1, e2]⟩
      obtain ⟨x, hx⟩ := hex
      have hp := List.find?_some hx
      have hmem := List.mem_of_find?_eq_some hx
      cases x with
      | none => simp at hp
      | some x =>
        obtain ⟨k, hk⟩ := List.mem_iff_getElem?.1 hmem
        have hkl : lsts[k]? = some (lsts[k]'(by have := (List.getElem?_eq_some_iff.1 hk).1; omega)) := List.getElem?_eq_getElem _
        have := h3 k _ x hkl hk
        simp only [decide_eq_true_eq] at hp
        have hkj : k = j := inj hkl (by rw [← this.1, hp.1, e1])
        subst hkj
        rw [hd] at hk; cases hk
        exact hx
    · rename_i hmm
      simp only [ne_eq, Decidable.not_not] at hmm
      have : i = j := inj hsi (by rw [hmm, e1])
      subst this
      rw [hd] at hdi; cases hdi
      simp [d2, e2]

/-! ### The hypotheses are met -/

namespace Ex

theorem jupList_good : GoodList jup jupList := by unfold GoodList; decide +kernel

theorem cacheInit : JupInit jup jupList (fresh0 (st 7)) := .keyed (e := 0) (k := 2) (b := ⟨8, (bytes (st 7).ctl).lsts⟩) (by decide +kernel)

/-- A list account with these (mint, calculator program) entries. -/
def listOf (es : List (Pubkey × Pubkey)) : AccMap := fun k =>
  if k = 2 then some ⟨8, listBytes lstElem (es.map fun e => (⟨0, 250, 251, 77, e.1, e.2⟩, 0))⟩ else none

/-- After the fetches, LST 21 is removed (22 moves to the front), then 21 comes back behind it, then 22's calculator is replaced. -/
def changes : List JupOp := [.full (fetch (st 7)), .full (fetch (st 7)), .list (listOf [(22, 32)]), .list (listOf [(22, 32), (21, 31)]),
  .list (listOf [(22, 31), (21, 31)])]

/-- The mints and reserves in the slots after `n` of them. -/
def slots (n : Nat) : List (Option (Nat × Option Nat)) :=
  ((fresh0 (st 7)).after jup (changes.take n)).data.map (·.map fun d => (d.solCalc.lstMint jup, d.reserves))

example : slots 0 = [some (21, none), some (22, none)] ∧ slots 2 = [some (21, some 36031), some (22, some 16016)] ∧
    slots 3 = [some (22, some 16016)] ∧ slots 4 = [some (22, some 16016), none] ∧ slots 5 = [none, none] := by decide +kernel

example : (∀ b, NoPanic (jup.balance b)) ∧ (∀ b, NoPanic (jup.supply b)) := by
  constructor <;> intro b <;> simp only [jup] <;> split <;> intro h <;> cases h

end Ex

end S
