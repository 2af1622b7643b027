import Verif.Props.CliRebalance
import Verif.Props.Lookup
import Verif.Props.Sync
/-
C57: what `sync-all` of the command-line tool leaves behind.
-/
set_option autoImplicit false
namespace S

/-! ### Specification -/

/-- An LST of the pool that the command knows: it is on the Sanctum list. -/
def Known (list : List SanctumLst) (s : LstState) : Prop := ∃ e ∈ list, e.mint = s.mint

instance (list : List SanctumLst) (s : LstState) : Decidable (Known list s) := by unfold Known; infer_instance

/-- `val` is the value, by its calculator, of the pool's reserves of every LST the command knows; the list's data about the LST are those of the
chain, and the calculator program answers by that calculator when called with the accounts listed for it. -/
def Valued (J : JupCfg) (L : RatioLib) (list : List SanctumLst) (env : Env J.cfg) (w : World) (val : Pubkey → Nat) : Prop :=
  ∀ s ∈ w.ctl.lsts, ∀ e, list.find? (fun e => e.mint = s.mint) = some e →
    ∃ m res rest c r, w.led.mints s.mint = some m ∧ e.tokenProgram = m.program ∧
      J.cfg.ata J.cfg.poolState m.program s.mint s.poolReservesBump = some res ∧ calcMetas J e = .ok (roMeta s.mint :: rest) ∧
      c.Usable ∧ env.Serves L ⟨s.solValueCalculator, roMeta s.mint :: rest⟩ c ∧ (c.calculator L).lstToSol (bal w.led res) = .ok r ∧
      val s.mint = r.min

/-- The pool after the LSTs selected by `f` have been recorded at their value: their entries, and the total, which is the sum of the entries. -/
def Ctl.recordAll (c : Ctl) (p : PoolState) (val : Pubkey → Nat) (f : LstState → Prop) [DecidablePred f] : Ctl :=
  let lsts := c.lsts.map fun s => if f s then { s with solValue := val s.mint } else s
  { c with pool := some { p with totalSolValue := (lsts.map LstState.solValue).sum }, lsts := lsts }

/-! ### Proofs -/

theorem chunks4_flatten {α : Type} (l : List α) : (chunks4 l).flatten = l := by
  induction l using chunks4.induct <;> simp [chunks4, *]

theorem chunks4_small {α : Type} (l : List α) (h : l.length ≤ 4) : chunks4 l = [] ∧ l = [] ∨ chunks4 l = [l] := by
  match l, h with
  | [], _ => exact .inl ⟨rfl, rfl⟩
  | [a], _ => exact .inr rfl
  | [a, b], _ => exact .inr rfl
  | [a, b, c], _ => exact .inr rfl
  | [a, b, c, d], _ => exact .inr rfl

def LstState.mark (val : Pubkey → Nat) (done : List Pubkey) (s : LstState) : LstState :=
  if s.mint ∈ done then { s with solValue := val s.mint } else s

def Ctl.marked (c : Ctl) (p : PoolState) (val : Pubkey → Nat) (done : List Pubkey) : Ctl :=
  { c with pool := some { p with totalSolValue := sumSol (c.lsts.map (LstState.mark val done)) }, lsts := c.lsts.map (LstState.mark val done) }

theorem LstState.mark_same (val : Pubkey → Nat) (done : List Pubkey) (s : LstState) :
    (s.mark val done).mint = s.mint ∧ (s.mark val done).solValueCalculator = s.solValueCalculator ∧
      (s.mark val done).poolReservesBump = s.poolReservesBump := by
  unfold LstState.mark; split <;> exact ⟨rfl, rfl, rfl⟩

theorem findFrom_map {α β : Type} (f : α → β) (p : β → Bool) (l : List α) (i : Nat) :
    findFrom p i (l.map f) = (findFrom (fun a => p (f a)) i l).map fun x => (x.1, f x.2) := by
  induction l generalizing i with
  | nil => rfl
  | cons a l ih =>
    simp only [List.map_cons, findFrom]
    split
    · rfl
    · exact ih (i + 1)

theorem syncByMint_mark (cfg : Cfg) (lsts : List LstState) (val : Pubkey → Nat) (done : List Pubkey) (m : MintAcc) (ms : List Acc) :
    syncByMint cfg (lsts.map (LstState.mark val done)) m ms = syncByMint cfg lsts m ms := by
  have h : resolveSync cfg (lsts.map (LstState.mark val done)) m = resolveSync cfg lsts m := by
    simp only [resolveSync, findLst, findFrom_map, (LstState.mark_same val done _).1]
    cases findFrom (fun s => decide (s.mint = m.key)) 0 lsts with
    | none => rfl
    | some x =>
      obtain ⟨h1, h2, h3⟩ := LstState.mark_same val done x.2
      simp only [Option.map_some, okOr, bind, Except.bind, poolReserves, h1, h2, h3]
  simp only [syncByMint, h]

theorem sum_le_sum' {α : Type} {f g : α → Nat} {l : List α} (h : ∀ a ∈ l, f a ≤ g a) : (l.map f).sum ≤ (l.map g).sum := by
  induction l with
  | nil => simp
  | cons a l ih =>
    simp only [List.map_cons, List.sum_cons]
    have := h a (List.mem_cons_self ..)
    have := ih fun a ha => h a (List.mem_cons_of_mem _ ha)
    omega

theorem sum_eq_all {α : Type} {f g : α → Nat} {l : List α} (h : ∀ a ∈ l, f a ≤ g a) (he : (l.map f).sum = (l.map g).sum) :
    ∀ a ∈ l, f a = g a := by
  induction l with
  | nil => simp
  | cons a l ih =>
    simp only [List.map_cons, List.sum_cons] at he
    have h1 := h a (List.mem_cons_self ..)
    have h2 := sum_le_sum' fun a ha => h a (List.mem_cons_of_mem _ ha)
    intro x hx
    rcases List.mem_cons.1 hx with rfl | hx
    · omega
    · exact ih (fun a ha => h a (List.mem_cons_of_mem _ ha)) (by omega) x hx

section
variable {J : JupCfg} {L : RatioLib} {list : List SanctumLst} {env : Env J.cfg} {w : World} {val : Pubkey → Nat} {p : PoolState}

theorem mark_le (done : List Pubkey) (hfit : (w.ctl.lsts.map fun s => max s.solValue (val s.mint)).sum < U64) :
    sumSol (w.ctl.lsts.map (LstState.mark val done)) < U64 := by
  refine Nat.lt_of_le_of_lt ?_ hfit
  simp only [sumSol, List.map_map]
  apply sum_le_sum'
  intro a _
  simp only [Function.comp, LstState.mark]
  split
  · exact Nat.le_max_right ..
  · exact Nat.le_max_left ..

theorem set_mark {lsts : List LstState} (hnd : (lsts.map LstState.mint).Nodup) {i : Nat} {s : LstState} (hs : lsts[i]? = some s) (done : List Pubkey) :
    (lsts.map (LstState.mark val done)).set i { s.mark val done with solValue := val s.mint } = lsts.map (LstState.mark val (done ++ [s.mint])) := by
  apply List.ext_getElem?
  intro j
  by_cases hij : i = j
  · subst hij
    have hl := (List.getElem?_eq_some_iff.1 hs).1
    simp only [List.getElem?_set_self (by simpa using hl : i < (lsts.map (LstState.mark val done)).length), List.getElem?_map, hs, Option.map_some]
    simp only [LstState.mark, List.mem_append, List.mem_singleton, or_true, if_true]
    split <;> rfl
  · rw [List.getElem?_set_ne hij]
    simp only [List.getElem?_map]
    cases hj : lsts[j]? with
    | none => rfl
    | some t =>
      have hne : t.mint ≠ s.mint := by
        intro e
        have h1 : (lsts.map LstState.mint)[j]? = (lsts.map LstState.mint)[i]? := by simp [hj, hs, e]
        exact hij ((List.getElem?_inj (by simpa using (List.getElem?_eq_some_iff.1 hj).1) hnd).1 h1).symm
      simp [LstState.mark, hne]

theorem known_mem {e : SanctumLst} (h : e ∈ knownLsts list w.ctl.lsts) :
    ∃ (i : Nat) (s : LstState), w.ctl.lsts[i]? = some s ∧ list.find? (fun x => x.mint = s.mint) = some e ∧ e.mint = s.mint := by
  simp only [knownLsts, List.mem_filterMap] at h
  obtain ⟨s, hs, he⟩ := h
  obtain ⟨i, hi⟩ := List.mem_iff_getElem?.1 hs
  refine ⟨i, s, hi, he, ?_⟩
  have := List.find?_some he
  simpa using this

theorem calcMetas_ro {e : SanctumLst} {ms : List Acc} (h : calcMetas J e = .ok ms) : ms.length ≤ 255 ∧ ∀ a ∈ ms, a.signer = false := by
  simp only [calcMetas, bind_ok, okOr_ok, pure_ok] at h
  obtain ⟨k, -, rfl⟩ := h
  cases k <;> simp [KnownCalc.ixAccounts, poolMetas, roMeta]

/-- The instruction for a known LST exists, and has no signers. -/
theorem syncAllIx_live (hinv : Inv J.cfg w) (hlen : w.ctl.lsts.length ≤ 2 ^ 32) (hval : Valued J L list env w val) {e : SanctumLst}
    (he : e ∈ knownLsts list w.ctl.lsts) :
    ∃ ix, syncAllIx J w.ctl.lsts e = .ok ix ∧ ix.program = J.cfg.programId ∧ signersOk J.cfg ix.accs := by
  obtain ⟨i, s, hi, hf, hem⟩ := known_mem he
  obtain ⟨m, res, rest, c, r, hm, htp, hres, hcm, -, -, -, -⟩ := hval s (List.mem_of_getElem? hi) e hf
  obtain ⟨hl, hsg⟩ := calcMetas_ro hcm
  have hfind : findLst e.mint w.ctl.lsts = .ok (i, s) := by
    refine findLst_ok.2 ⟨hi, hem.symm, ?_⟩
    intro n t hn ht hmt
    have h1 : (w.ctl.lsts.map LstState.mint)[n]? = (w.ctl.lsts.map LstState.mint)[i]? := by simp [ht, hi, hmt, hem]
    have := (List.getElem?_inj (by simpa using (List.getElem?_eq_some_iff.1 ht).1) hinv.ctl.mints).1 h1
    omega
  have hlt := (List.getElem?_eq_some_iff.1 hi).1
  refine ⟨⟨J.cfg.programId, SyncKeys.metas ⟨e.mint, J.cfg.poolState, J.cfg.lstStateList, res⟩ ++
      roMeta s.solValueCalculator :: (roMeta s.mint :: rest).drop 1, (Ix.syncSolValue i).encode⟩, ?_, rfl, ?_⟩
  · simp only [syncAllIx, syncByMint, resolveSync, syncIx, bind_ok, Prod.exists, poolReserves_ok, pure_ok, Prod.mk.injEq, indexToU32_ok,
      extendOne_ok]
    exact ⟨_, hcm, _, i, _, ⟨i, s, hfind, res, by rw [htp]; exact hres, rfl, rfl, rfl⟩, i, ⟨by omega, rfl⟩, _, _, ⟨hl, rfl, rfl⟩, rfl⟩
  · intro a ha hs
    simp only [List.mem_append, List.mem_cons, List.drop_succ_cons, List.drop_zero, SyncKeys.metas] at ha
    have : a.signer = false := by
      rcases ha with (rfl | rfl | rfl | rfl | h) | rfl | h
      · rfl
      · rfl
      · rfl
      · rfl
      · cases h
      · rfl
      · exact hsg a (List.mem_cons_of_mem _ h)
    rw [hs] at this; cases this

/-- One instruction. -/
theorem sync_step (hinv : Inv J.cfg w) (hp : w.ctl.pool = some p) (hopen : p.isDisabled = 0 ∧ p.isRebalancing = 0)
    (hval : Valued J L list env w val) (hfit : (w.ctl.lsts.map fun s => max s.solValue (val s.mint)).sum < U64) {e : SanctumLst}
    (he : e ∈ knownLsts list w.ctl.lsts) {ix : TopIx} (hix : syncAllIx J w.ctl.lsts e = .ok ix) (hprog : ix.program = J.cfg.programId)
    (hsig : signersOk J.cfg ix.accs) (tx : TxInfo) (done : List Pubkey) :
    (Step.controller ⟨env, ix.accs, ix.data⟩ : Step J.cfg).run L tx ⟨w.ctl.marked p val done, w.led⟩ =
      .ok ⟨w.ctl.marked p val (done ++ [e.mint]), w.led⟩ := by
  obtain ⟨i, s, hi, hf, hem⟩ := known_mem he
  obtain ⟨m, res, rest, c, r, hm, htp, hres, hcm, hu, hserve, hr, hv⟩ := hval s (List.mem_of_getElem? hi) e hf
  simp only [syncAllIx, hcm, bind, Except.bind] at hix
  rw [← syncByMint_mark J.cfg w.ctl.lsts val done] at hix
  obtain ⟨j, t, res', hfirst, hres', seen, hseen, hlive⟩ := C43_sync (L := L) (env := env) (tx := tx)
    (w := ⟨w.ctl.marked p val done, w.led⟩) (p := { p with totalSolValue := sumSol (w.ctl.lsts.map (LstState.mark val done)) })
    (rest := rest) (by rw [hem]) hix (SeenAs.refl _) ⟨rfl, hopen.2, hopen.1⟩ ⟨m, by rw [hem]; exact hm, htp.symm⟩
  have hget : (w.ctl.lsts.map (LstState.mark val done))[j]? = some t := hfirst.get
  have hmint : t.mint = e.mint := hfirst.mint_eq
  have hij : j = i := by
    have h1 : (w.ctl.lsts.map LstState.mint)[j]? = (w.ctl.lsts.map LstState.mint)[i]? := by
      rw [List.getElem?_map] at hget
      cases hj : w.ctl.lsts[j]? with
      | none => rw [hj] at hget; cases hget
      | some t' =>
        rw [hj] at hget; injection hget with hget
        rw [← hget, (LstState.mark_same val done t').1] at hmint
        simp [hj, hi, hmint, hem]
    refine (List.getElem?_inj ?_ hinv.ctl.mints).1 h1
    have := (List.getElem?_eq_some_iff.1 hget).1
    simpa using this
  subst hij
  have ht : t = s.mark val done := by
    rw [List.getElem?_map, hi] at hget; injection hget with hget; exact hget.symm
  subst ht
  obtain ⟨h1, h2, h3⟩ := LstState.mark_same val done s
  rw [h1, h3] at hres'
  simp only at hres'
  rw [htp, hres] at hres'
  injection hres' with hres'; subst hres'
  obtain ⟨m', rk, ak, ra, fa, la⟩ := hinv.accs s (List.mem_of_getElem? hi)
  have em : m' = m := by have := la.mint; rw [hm] at this; injection this with this; exact this.symm
  subst em
  have er : rk = res := by have := la.res_key; rw [hres] at this; injection this with this; exact this.symm
  subst er
  have hbal : bal w.led rk = ra.amount := by rw [bal, la.res]; rfl
  rw [hbal] at hr
  obtain ⟨hr1, hr2⟩ := AnyCalc.lstToSol_u64 hu (hinv.wf.tok_u64 _ _ la.res) hr
  have hsum := sum_set LstState.solValue (w.ctl.lsts.map (LstState.mark val done)) j (s.mark val done)
    { s.mark val done with solValue := r.min } hget
  have hset := set_mark (val := val) hinv.ctl.mints hi done
  have hfin := mark_le (done ++ [s.mint]) hfit
  have hle := le_sumSol (List.mem_of_getElem? hget)
  rw [hv] at hset
  rw [hset] at hsum
  simp only [sumSol] at hle hfin hsum
  have hrun := hlive ra r w.led la.res
    (by rw [h2]; exact ((hserve 0 ⟨w.ctl.marked p val done, w.led⟩ seen hseen).1 _ _ hr)) hr1 hr2
    (by simp only [sumSol]; exact hle) (by simp only [sumSol]; omega)
  simp only [Step.run, Call.run, bind_ok, require_ok, exists_const]
  refine ⟨hsig, ?_⟩
  rw [← hprog, hrun]
  have e1 : (w.ctl.marked p val done).lsts = w.ctl.lsts.map (LstState.mark val done) := rfl
  rw [e1, hset, hem]
  congr 2
  simp only [Ctl.marked, sumSol]
  congr 3
  omega

/-- One transaction. -/
theorem sync_tx (hinv : Inv J.cfg w) (hp : w.ctl.pool = some p) (hopen : p.isDisabled = 0 ∧ p.isRebalancing = 0)
    (hlen : w.ctl.lsts.length ≤ 2 ^ 32) (hval : Valued J L list env w val)
    (hfit : (w.ctl.lsts.map fun s => max s.solValue (val s.mint)).sum < U64) {chunk : List SanctumLst}
    (hc : ∀ e ∈ chunk, e ∈ knownLsts list w.ctl.lsts) :
    ∃ tx, syncAllTx J env w.ctl.lsts chunk = .ok tx ∧ ∀ done, Tx.run L ⟨w.ctl.marked p val done, w.led⟩ tx =
      .ok ⟨w.ctl.marked p val (done ++ chunk.map SanctumLst.mint), w.led⟩ := by
  have key : ∃ ixs : List TopIx, chunk.mapM (syncAllIx J w.ctl.lsts) = .ok ixs ∧ ∀ (tops : List TopIx) (n : Nat) (done : List Pubkey),
      runSteps L tops n ⟨w.ctl.marked p val done, w.led⟩ (ixs.map fun ix => (Step.controller ⟨env, ix.accs, ix.data⟩ : Step J.cfg)) =
        .ok ⟨w.ctl.marked p val (done ++ chunk.map SanctumLst.mint), w.led⟩ := by
    induction chunk with
    | nil => exact ⟨[], rfl, fun _ _ _ => by simp [runSteps]⟩
    | cons e chunk ih =>
      obtain ⟨ixs, h1, h2⟩ := ih fun e he => hc e (List.mem_cons_of_mem _ he)
      obtain ⟨ix, hix, hprog, hsig⟩ := syncAllIx_live hinv hlen hval (hc e (List.mem_cons_self ..))
      refine ⟨ix :: ixs, by simp [List.mapM_cons, hix, h1]; rfl, ?_⟩
      intro tops n done
      have hs := sync_step hinv hp hopen hval hfit (hc e (List.mem_cons_self ..)) hix hprog hsig ⟨tops, n⟩ done
      have h3 := h2 tops (n + 1) (done ++ [e.mint])
      simp only [List.map_cons, runSteps, bind_ok]
      exact ⟨_, hs, by rw [h3]; simp⟩
  obtain ⟨ixs, h1, h2⟩ := key
  exact ⟨_, by simp only [syncAllTx, h1, bind, Except.bind, pure, Except.pure], fun done => h2 _ 0 done⟩

theorem marked_nil (hinv : Inv J.cfg w) (hp : w.ctl.pool = some p) : (⟨w.ctl.marked p val [], w.led⟩ : World) = w := by
  have h1 : w.ctl.lsts.map (LstState.mark val []) = w.ctl.lsts := by
    conv_rhs => rw [← List.map_id w.ctl.lsts]
    apply List.map_congr_left
    intro a _
    simp [LstState.mark]
  have h2 := hinv.ctl.total p hp
  have h3 : w.ctl.marked p val [] = w.ctl := by
    simp only [Ctl.marked, h1, ← h2]
    have : (some p : Option PoolState) = w.ctl.pool := hp.symm
    cases hw : w.ctl
    rw [hw] at this
    simp only at this
    simp only [this]
  rw [h3]

theorem marked_all (P : LstState → Prop) [DecidablePred P] {done : List Pubkey} (h : ∀ s ∈ w.ctl.lsts, s.mint ∈ done ↔ P s) :
    w.ctl.marked p val done = w.ctl.recordAll p val P := by
  have h1 : w.ctl.lsts.map (LstState.mark val done) = w.ctl.lsts.map fun s => if P s then { s with solValue := val s.mint } else s := by
    apply List.map_congr_left
    intro s hs
    simp only [LstState.mark, h s hs]
  simp only [Ctl.marked, Ctl.recordAll, h1, sumSol]

theorem known_iff {s : LstState} (hs : s ∈ w.ctl.lsts) : s.mint ∈ (knownLsts list w.ctl.lsts).map SanctumLst.mint ↔ Known list s := by
  simp only [List.mem_map, knownLsts, List.mem_filterMap, Known]
  constructor
  · rintro ⟨e, ⟨t, _, he⟩, hm⟩
    exact ⟨e, List.mem_of_find?_eq_some he, hm⟩
  · rintro ⟨e, he, hm⟩
    cases hf : list.find? (fun x => decide (x.mint = s.mint)) with
    | none =>
      have := List.find?_eq_none.1 hf e he
      simp [hm] at this
    | some e' => exact ⟨e', ⟨s, hs, hf⟩, by simpa using List.find?_some hf⟩

theorem fold_force (hinv : Inv J.cfg w) (hp : w.ctl.pool = some p) (hopen : p.isDisabled = 0 ∧ p.isRebalancing = 0)
    (hlen : w.ctl.lsts.length ≤ 2 ^ 32) (hval : Valued J L list env w val)
    (hfit : (w.ctl.lsts.map fun s => max s.solValue (val s.mint)).sum < U64) (cs : List (List SanctumLst))
    (hc : ∀ c ∈ cs, ∀ e ∈ c, e ∈ knownLsts list w.ctl.lsts) (p₀ : PoolState) :
    ∀ done, cs.foldlM (syncAllChunk J L env true w.ctl.lsts p₀) ⟨w.ctl.marked p val done, w.led⟩ =
      .ok ⟨w.ctl.marked p val (done ++ cs.flatten.map SanctumLst.mint), w.led⟩ := by
  induction cs with
  | nil => intro done; simp; rfl
  | cons c cs ih =>
    intro done
    obtain ⟨tx, h1, h2⟩ := sync_tx hinv hp hopen hlen hval hfit (hc c (List.mem_cons_self ..))
    have h3 := ih (fun c h => hc c (List.mem_cons_of_mem _ h)) (done ++ c.map SanctumLst.mint)
    simp only [List.foldlM_cons, bind_ok]
    refine ⟨_, ?_, by rw [h3]; simp⟩
    simp only [syncAllChunk, bind_ok, if_true]
    exact ⟨tx, h1, h2 done⟩

/-- Without `--force`: the chunks sent. -/
theorem fold_lazy (hinv : Inv J.cfg w) (hp : w.ctl.pool = some p) (hopen : p.isDisabled = 0 ∧ p.isRebalancing = 0)
    (hlen : w.ctl.lsts.length ≤ 2 ^ 32) (hval : Valued J L list env w val)
    (hfit : (w.ctl.lsts.map fun s => max s.solValue (val s.mint)).sum < U64) (cs : List (List SanctumLst))
    (hc : ∀ c ∈ cs, ∀ e ∈ c, e ∈ knownLsts list w.ctl.lsts) (p₀ : PoolState) :
    ∀ done, (∀ m ∈ done, m ∈ (knownLsts list w.ctl.lsts).map SanctumLst.mint) →
      ∃ done', (∀ m ∈ done', m ∈ (knownLsts list w.ctl.lsts).map SanctumLst.mint) ∧
      cs.foldlM (syncAllChunk J L env false w.ctl.lsts p₀) ⟨w.ctl.marked p val done, w.led⟩ = .ok ⟨w.ctl.marked p val done', w.led⟩ := by
  induction cs with
  | nil => intro done hd; exact ⟨done, hd, rfl⟩
  | cons c cs ih =>
    intro done hd
    obtain ⟨tx, h1, h2⟩ := sync_tx hinv hp hopen hlen hval hfit (hc c (List.mem_cons_self ..))
    by_cases hsk : (w.ctl.marked p val (done ++ c.map SanctumLst.mint)).pool = some p₀
    · obtain ⟨done', hd', h3⟩ := ih (fun c h => hc c (List.mem_cons_of_mem _ h)) done hd
      refine ⟨done', hd', ?_⟩
      simp only [List.foldlM_cons, bind_ok]
      refine ⟨_, ?_, h3⟩
      simp only [syncAllChunk, bind_ok, Bool.false_eq_true, if_false]
      exact ⟨tx, h1, _, h2 done, by simp only [hsk, if_true]; rfl⟩
    · obtain ⟨done', hd', h3⟩ := ih (fun c h => hc c (List.mem_cons_of_mem _ h)) (done ++ c.map SanctumLst.mint) (by
        intro m hm
        rcases List.mem_append.1 hm with hm | hm
        · exact hd m hm
        · obtain ⟨e, he, rfl⟩ := List.mem_map.1 hm
          exact List.mem_map.2 ⟨e, hc c (List.mem_cons_self ..) e he, rfl⟩)
      refine ⟨done', hd', ?_⟩
      simp only [List.foldlM_cons, bind_ok]
      refine ⟨_, ?_, h3⟩
      simp only [syncAllChunk, bind_ok, Bool.false_eq_true, if_false]
      exact ⟨tx, h1, _, h2 done, by simp only [hsk, if_false]; exact h2 done⟩

/-- When no value has fallen, a chunk is skipped only if none of its values has changed. -/
theorem fold_rising (hinv : Inv J.cfg w) (hp : w.ctl.pool = some p) (hopen : p.isDisabled = 0 ∧ p.isRebalancing = 0)
    (hlen : w.ctl.lsts.length ≤ 2 ^ 32) (hval : Valued J L list env w val)
    (hfit : (w.ctl.lsts.map fun s => max s.solValue (val s.mint)).sum < U64)
    (hup : ∀ s ∈ w.ctl.lsts, Known list s → s.solValue ≤ val s.mint) (cs : List (List SanctumLst))
    (hc : ∀ c ∈ cs, ∀ e ∈ c, e ∈ knownLsts list w.ctl.lsts) :
    ∀ done, (∀ m ∈ done, m ∈ (knownLsts list w.ctl.lsts).map SanctumLst.mint) →
      cs.foldlM (syncAllChunk J L env false w.ctl.lsts p) ⟨w.ctl.marked p val done, w.led⟩ =
        .ok ⟨w.ctl.marked p val (done ++ cs.flatten.map SanctumLst.mint), w.led⟩ := by
  induction cs with
  | nil => intro done _; simp; rfl
  | cons c cs ih =>
    intro done hd
    obtain ⟨tx, h1, h2⟩ := sync_tx hinv hp hopen hlen hval hfit (hc c (List.mem_cons_self ..))
    have hd' : ∀ m ∈ done ++ c.map SanctumLst.mint, m ∈ (knownLsts list w.ctl.lsts).map SanctumLst.mint := by
      intro m hm
      rcases List.mem_append.1 hm with hm | hm
      · exact hd m hm
      · obtain ⟨e, he, rfl⟩ := List.mem_map.1 hm
        exact List.mem_map.2 ⟨e, hc c (List.mem_cons_self ..) e he, rfl⟩
    have h3 := ih (fun c h => hc c (List.mem_cons_of_mem _ h)) (done ++ c.map SanctumLst.mint) hd'
    simp only [List.foldlM_cons, bind_ok]
    refine ⟨_, ?_, by rw [h3]; simp⟩
    simp only [syncAllChunk, bind_ok, Bool.false_eq_true, if_false]
    refine ⟨tx, h1, _, h2 done, ?_⟩
    split
    · rename_i hsk
      have hge : ∀ s ∈ w.ctl.lsts, s.solValue ≤ (s.mark val (done ++ c.map SanctumLst.mint)).solValue := by
        intro s hs
        unfold LstState.mark
        split
        · rename_i hm
          exact hup s hs ((known_iff hs).1 (hd' _ hm))
        · exact Nat.le_refl _
      have hsum : sumSol (w.ctl.lsts.map (LstState.mark val (done ++ c.map SanctumLst.mint))) = sumSol w.ctl.lsts := by
        rw [← hinv.ctl.total p hp]
        have := hsk
        simp only [Ctl.marked, Option.some.injEq] at this
        exact congrArg PoolState.totalSolValue this
      simp only [sumSol, List.map_map] at hsum
      have hall := sum_eq_all hge hsum.symm
      have heq : w.ctl.lsts.map (LstState.mark val done) = w.ctl.lsts.map (LstState.mark val (done ++ c.map SanctumLst.mint)) := by
        apply List.map_congr_left
        intro s hs
        have := hall s hs
        unfold LstState.mark at this ⊢
        by_cases hm1 : s.mint ∈ done
        · simp [hm1]
        · by_cases hm2 : s.mint ∈ c.map SanctumLst.mint
          · have hm3 : s.mint ∈ done ++ c.map SanctumLst.mint := List.mem_append.2 (.inr hm2)
            simp only [hm1, hm3, if_true, if_false] at this ⊢
            rw [← this]
          · have hm3 : s.mint ∉ done ++ c.map SanctumLst.mint := by simp only [List.mem_append, not_or]; exact ⟨hm1, hm2⟩
            simp only [hm1, hm3, if_false]
      show Except.ok _ = _
      simp only [Ctl.marked, heq]
    · exact h2 done

theorem flatten_known {c : List SanctumLst} {e : SanctumLst} (hc : c ∈ chunks4 (knownLsts list w.ctl.lsts)) (he : e ∈ c) :
    e ∈ knownLsts list w.ctl.lsts := by
  rw [← chunks4_flatten (knownLsts list w.ctl.lsts)]
  exact List.mem_flatten.2 ⟨c, hc, he⟩

variable (hreach : Reachable J.cfg L w) (hp : w.ctl.pool = some p) (hopen : p.isDisabled = 0 ∧ p.isRebalancing = 0)
  (hlen : w.ctl.lsts.length ≤ 2 ^ 32) (hval : Valued J L list env w val)
  (hfit : (w.ctl.lsts.map fun s => max s.solValue (val s.mint)).sum < U64)
include hreach hp hopen hlen hval hfit

/-- C57, `sync-all --force`: on an open pool the command succeeds and leaves every LST it knows recorded at its value, the total being the sum of the
records; nothing else changes. (`hfit`: no intermediate total overflows.) -/
theorem C57_force : syncAll J L list env true w = .ok ⟨w.ctl.recordAll p val (Known list), w.led⟩ := by
  have h := fold_force hreach.inv hp hopen hlen hval hfit (chunks4 (knownLsts list w.ctl.lsts)) (fun c hc e he => flatten_known hc he) p []
  rw [marked_nil hreach.inv hp, chunks4_flatten, List.nil_append,
    marked_all (Known list) (fun s hs => known_iff hs)] at h
  simp only [syncAll, hp, okOr, bind, Except.bind]
  exact h

/-- C57, `sync-all` when no LST it knows has lost value: the same as with `--force`. -/
theorem C57_rising (hup : ∀ s ∈ w.ctl.lsts, Known list s → s.solValue ≤ val s.mint) :
    syncAll J L list env false w = .ok ⟨w.ctl.recordAll p val (Known list), w.led⟩ := by
  have h := fold_rising hreach.inv hp hopen hlen hval hfit hup (chunks4 (knownLsts list w.ctl.lsts)) (fun c hc e he => flatten_known hc he) []
    (by simp)
  rw [marked_nil hreach.inv hp, chunks4_flatten, List.nil_append,
    marked_all (Known list) (fun s hs => known_iff hs)] at h
  simp only [syncAll, hp, okOr, bind, Except.bind]
  exact h

/-- C57, `sync-all` in general: it succeeds, and some of the LSTs it knows are recorded at their value, the others as before; the total is the sum of
the records. -/
theorem C57_some : ∃ done : List Pubkey, syncAll J L list env false w = .ok ⟨w.ctl.recordAll p val (fun s => Known list s ∧ s.mint ∈ done), w.led⟩ := by
  obtain ⟨done, hd, h⟩ := fold_lazy hreach.inv hp hopen hlen hval hfit (chunks4 (knownLsts list w.ctl.lsts)) (fun c hc e he => flatten_known hc he) p []
    (by simp)
  rw [marked_nil hreach.inv hp, marked_all (fun s => Known list s ∧ s.mint ∈ done)
    (fun s hs => ⟨fun hm => ⟨(known_iff hs).1 (hd _ hm), hm⟩, fun hm => hm.2⟩)] at h
  refine ⟨done, ?_⟩
  simp only [syncAll, hp, okOr, bind, Except.bind]
  exact h

/-- C57, `sync-all` with at most four LSTs it knows: the pool's total comes out as with `--force`. -/
theorem C57_four (hfour : (knownLsts list w.ctl.lsts).length ≤ 4) :
    ∃ w', syncAll J L list env false w = .ok w' ∧ w'.ctl.pool = (w.ctl.recordAll p val (Known list)).pool := by
  have hinv := hreach.inv
  have hm := marked_all (w := w) (p := p) (val := val) (Known list) (fun s hs => known_iff (list := list) hs)
  have hnil := marked_nil (val := val) hinv hp
  have hsy : syncAll J L list env false w = (chunks4 (knownLsts list w.ctl.lsts)).foldlM (syncAllChunk J L env false w.ctl.lsts p) w := by
    simp only [syncAll, hp, okOr, bind, Except.bind]
  rcases chunks4_small _ hfour with ⟨h0, h1⟩ | h0
  · refine ⟨w, by rw [hsy, h0]; rfl, ?_⟩
    rw [h1, List.map_nil] at hm
    rw [← hm]
    exact congrArg (fun x : World => x.ctl.pool) hnil.symm
  · obtain ⟨tx, h2, h3⟩ := sync_tx hinv hp hopen hlen hval hfit (chunk := knownLsts list w.ctl.lsts) (fun e he => he)
    have h3 := h3 []
    rw [hnil, List.nil_append, hm] at h3
    have hone : ∀ w', syncAllChunk J L env false w.ctl.lsts p w (knownLsts list w.ctl.lsts) = .ok w' → syncAll J L list env false w = .ok w' := by
      intro w' hw'
      rw [hsy, h0]
      simp only [List.foldlM_cons, List.foldlM_nil, bind_ok]
      exact ⟨w', hw', rfl⟩
    by_cases hsk : (w.ctl.recordAll p val (Known list)).pool = some p
    · refine ⟨w, hone w ?_, hp.trans hsk.symm⟩
      simp only [syncAllChunk, bind_ok, Bool.false_eq_true, if_false]
      exact ⟨tx, h2, _, h3, by simp only [hsk, if_true]; rfl⟩
    · refine ⟨⟨w.ctl.recordAll p val (Known list), w.led⟩, hone _ ?_, rfl⟩
      simp only [syncAllChunk, bind_ok, Bool.false_eq_true, if_false]
      exact ⟨tx, h2, _, h3, by simp only [hsk, if_false]; exact h3⟩

end

/-! ### Concretely

5000 of LST 21 and 700 of LST 22 have been given to the pool (`Ex.stale`), so both records are out of date; both LSTs are on the list. -/
namespace Ex

def staleVal (m : Pubkey) : Nat := if m = 21 then 41031 else 25074

theorem stale_pool : stale.ctl.pool.map (fun p => (p.isDisabled, p.isRebalancing)) = some (0, 0) := by decide +kernel
theorem stale_lsts : stale.ctl.lsts.map (fun s => (s.mint, s.solValueCalculator, s.poolReservesBump, s.solValue)) =
    [(21, 31, 255, 36031), (22, 32, 255, 24024)] := by decide +kernel
theorem stale_progs : (stale.led.mints 21).map Mint.program = some 8 ∧ (stale.led.mints 22).map Mint.program = some 8 := by decide +kernel
theorem stale_bal : bal stale.led resA = 41031 ∧ bal stale.led resB = 16716 := by decide +kernel
theorem stale_ata : jup.cfg.ata jup.cfg.poolState 8 21 255 = some resA ∧ jup.cfg.ata jup.cfg.poolState 8 22 255 = some resB := by decide +kernel
theorem stale_max : (stale.ctl.lsts.map fun s => max s.solValue (staleVal s.mint)).sum < U64 := by decide +kernel
theorem stale_up : ∀ s ∈ stale.ctl.lsts, s.solValue ≤ staleVal s.mint := by decide +kernel
theorem stale_found : jupList.find? (fun e => e.mint = 21) = some ⟨21, 8, .reservePool⟩ ∧
    jupList.find? (fun e => e.mint = 22) = some ⟨22, 8, .lido⟩ := by decide +kernel

theorem stale_valued : Valued jup .ex jupList fenv stale staleVal := by
  intro s hs e he
  have hs' : (s.mint, s.solValueCalculator, s.poolReservesBump, s.solValue) ∈
      stale.ctl.lsts.map (fun s => (s.mint, s.solValueCalculator, s.poolReservesBump, s.solValue)) := List.mem_map.2 ⟨s, hs, rfl⟩
  rw [stale_lsts] at hs'
  simp only [List.mem_cons, Prod.mk.injEq, List.not_mem_nil, or_false] at hs'
  rcases hs' with ⟨h1, h2, h3, _⟩ | ⟨h1, h2, h3, _⟩
  · rw [h1, stale_found.1] at he
    injection he with he; subst he
    obtain ⟨m, hm, hmp⟩ := Option.map_eq_some_iff.1 stale_progs.1
    refine ⟨m, resA, [], .wsol, ⟨41031, 41031⟩, by rw [h1, hm], hmp.symm, by rw [h1, h3, hmp, stale_ata.1], by rw [h1]; rfl, trivial, ?_, ?_, ?_⟩
    · rw [h2]
      exact fun n w ms _ => ⟨fun a r h => Env.pure_calc.2 ⟨h, rfl⟩, fun a r h => Env.pure_calc.2 ⟨h, rfl⟩⟩
    · rw [stale_bal.1]; rfl
    · rw [h1]; rfl
  · rw [h1, stale_found.2] at he
    injection he with he; subst he
    obtain ⟨m, hm, hmp⟩ := Option.map_eq_some_iff.1 stale_progs.2
    obtain ⟨rest, hrest⟩ : ∃ rest, calcMetas jup ⟨22, 8, .lido⟩ = .ok (roMeta 22 :: rest) := ⟨_, rfl⟩
    obtain ⟨r, hr, hr'⟩ : ∃ r, ((AnyCalc.lido ⟨0, 2, 3⟩).calculator .ex).lstToSol 16716 = .ok r ∧ r.min = 25074 :=
      ⟨⟨25074, 25074⟩, ok_of_toOption (by decide +kernel), rfl⟩
    refine ⟨m, resB, rest, .lido ⟨0, 2, 3⟩, r, by rw [h1, hm], hmp.symm, by rw [h1, h3, hmp, stale_ata.2], by rw [h1, hrest],
      ⟨by decide, by decide⟩, ?_, ?_, ?_⟩
    · rw [h2]
      exact fun n w ms _ => ⟨fun a r h => Env.pure_calc.2 ⟨h, rfl⟩, fun a r h => Env.pure_calc.2 ⟨h, rfl⟩⟩
    · rw [stale_bal.2]; exact hr
    · rw [h1, hr']; rfl

/-- All hypotheses of `C57_force`, `C57_rising`, `C57_some` and `C57_four` hold of it, and both records end at their value. -/
example : ∃ p, stale.ctl.pool = some p ∧ syncAll jup .ex jupList fenv true stale = .ok ⟨stale.ctl.recordAll p staleVal (Known jupList), stale.led⟩ ∧
    syncAll jup .ex jupList fenv false stale = .ok ⟨stale.ctl.recordAll p staleVal (Known jupList), stale.led⟩ := by
  obtain ⟨p, hp, hf⟩ := Option.map_eq_some_iff.1 stale_pool
  injection hf with hd hr
  have hl : stale.ctl.lsts.length ≤ 2 ^ 32 := by
    have := congrArg List.length stale_lsts
    rw [List.length_map] at this
    rw [this]; decide
  exact ⟨p, hp, C57_force (J := jup) stale_reachable hp ⟨hd, hr⟩ hl stale_valued stale_max,
    C57_rising (J := jup) stale_reachable hp ⟨hd, hr⟩ hl stale_valued stale_max fun s hs _ => stale_up s hs⟩

example : (knownLsts jupList stale.ctl.lsts).length ≤ 4 := by decide +kernel
example : Ex.values (syncAll jup .ex jupList fenv true stale) = some (66105, [41031, 25074]) := by decide +kernel
example : Ex.values (syncAll jup .ex jupList fenv false stale) = some (66105, [41031, 25074]) := by decide +kernel

/-- A slashed LST 22, whose reserves in `stale` are now worth 19024: 5000 less than recorded, as much as LST 21 has gained. -/
def slashed : Env cfg := Env.pure cfg (fun p ms q => if p = 32 then
    match q with
    | .lstToSol a => ((⟨0, 16716, 19024⟩ : LidoCalc).calculator .ex).lstToSol a
    | .solToLst v => ((⟨0, 16716, 19024⟩ : LidoCalc).calculator .ex).solToLst v
  else calcF p ms q) priceF

/-- Without `--force` the transaction is not sent, because the total would stay the same: both records stay wrong. -/
example : Ex.values (syncAll jup .ex jupList slashed true stale) = some (60055, [41031, 19024]) ∧
    Ex.values (syncAll jup .ex jupList slashed false stale) = some (60055, [36031, 24024]) := by decide +kernel

/-- In a later chunk the comparison is still with the pool as fetched at the start, so even the total can be left wrong: here LST 21 has been synced by
an earlier chunk, and the chunk of LST 22 brings the total back to what it was at the start. -/
example : (stale.ctl.pool.map fun p₀ => (Ex.values (Ex.sync Ex.syncA 0 stale),
      Ex.values (Ex.sync Ex.syncA 0 stale >>= fun w => syncAllChunk jup .ex slashed false stale.ctl.lsts p₀ w [⟨22, 8, .lido⟩]),
      Ex.values (Ex.sync Ex.syncA 0 stale >>= fun w => syncAllChunk jup .ex slashed true stale.ctl.lsts p₀ w [⟨22, 8, .lido⟩]))) =
    some (some (65055, [41031, 24024]), some (65055, [41031, 24024]), some (60055, [41031, 19024])) := by decide +kernel

end Ex

end S
