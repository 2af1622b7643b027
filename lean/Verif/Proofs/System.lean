import Verif.System
import Verif.Proofs.History
import Verif.Props.CalcPrograms
import Verif.Props.FlatFee
/-
The system of all programs, seen from the controller: every history of the system is a history of the controller.
-/
set_option autoImplicit false
namespace S
variable {sc : SysCfg} {L : RatioLib}

/-- The action as the controller sees it: the other programs of the repository touch no token account. -/
def SysAction.ctl (L : RatioLib) (s : Sys sc) : SysAction sc → Action sc.cfg
  | .ext f ok => .ext f ok
  | .controller o accs data => .call ⟨s.env L o, accs, data⟩
  | .flat _ => .ext id (fun l => .refl _ l)
  | .calc _ _ _ => .ext id (fun l => .refl _ l)

def ctlActions (L : RatioLib) (tx : TxInfo) : Sys sc → List (SysAction sc) → List (Action sc.cfg)
  | _, [] => []
  | s, a :: as => a.ctl L s :: (match a.run L tx s with
    | .ok s' => ctlActions L tx s' as
    | .error _ => [])

def ctlStep (L : RatioLib) (tx : TxInfo) (s : Sys sc) : SysStep sc → Step sc.cfg
  | .controller o accs data => .controller ⟨s.env L o, accs, data⟩
  | .foreign ix h as => .foreign ix h (ctlActions L tx s as)

def ctlSteps (L : RatioLib) (ixs : List TopIx) : Nat → Sys sc → List (SysStep sc) → List (Step sc.cfg)
  | _, _, [] => []
  | i, s, t :: ts => ctlStep L ⟨ixs, i⟩ s t :: (match runSysActions L ⟨ixs, i⟩ s t.actions with
    | .ok s' => ctlSteps L ixs (i + 1) s' ts
    | .error _ => [])

/-- The transaction as the controller sees it; a failed one is dropped. -/
def SysTx.ctl (L : RatioLib) (s : Sys sc) (t : SysTx sc) : Tx sc.cfg :=
  match SysTx.run L s t with
  | .ok _ => ctlSteps L (List.map SysStep.top t) 0 s t
  | .error _ => []

/-- The history as the controller sees it. -/
def ctlHistory (L : RatioLib) : Sys sc → List (SysTx sc) → List (Tx sc.cfg)
  | _, [] => []
  | s, t :: h => SysTx.ctl L s t :: ctlHistory L (SysTx.apply L s t) h

/-- The event as the controller sees it. -/
def SysEvent.ctl (L : RatioLib) (e : SysEvent sc) : Event sc.cfg := ⟨e.tx, e.pre.world, e.act.ctl L e.pre, e.post.world⟩

theorem SysAction.run_ctl {tx : TxInfo} {s s' : Sys sc} {a : SysAction sc} (h : a.run L tx s = .ok s') :
    (a.ctl L s).run L tx s.world = .ok s'.world := by
  cases a with
  | ext f ok => simp only [SysAction.run, Except.ok.injEq] at h; subst h; rfl
  | controller o accs data =>
    simp only [SysAction.run, bind_ok, pure_ok] at h
    obtain ⟨w, hw, rfl⟩ := h
    exact hw
  | flat c =>
    simp only [SysAction.run, bind_ok, pure_ok] at h
    obtain ⟨_, _, rfl⟩ := h; rfl
  | «calc» pc mem c =>
    simp only [SysAction.run, bind_ok, pure_ok] at h
    obtain ⟨_, _, rfl⟩ := h; rfl

theorem ctlActions_run {tx : TxInfo} {as : List (SysAction sc)} {s s' : Sys sc} (h : runSysActions L tx s as = .ok s') :
    runActions L tx s.world (ctlActions L tx s as) = .ok s'.world ∧
    actionEvents L tx s.world (ctlActions L tx s as) = (sysActionEvents L tx s as).map (SysEvent.ctl L) := by
  induction as generalizing s with
  | nil => simp only [runSysActions, Except.ok.injEq] at h; subst h; exact ⟨rfl, rfl⟩
  | cons a as ih =>
    simp only [runSysActions, bind_ok] at h
    obtain ⟨s1, h1, h⟩ := h
    obtain ⟨i1, i2⟩ := ih h
    have hc := SysAction.run_ctl h1
    simp only [ctlActions, h1, runActions, actionEvents, sysActionEvents, hc, i2, List.map_cons]
    exact ⟨i1, rfl⟩

theorem ctlStep_run {tx : TxInfo} {t : SysStep sc} {s s' : Sys sc} (h : runSysActions L tx s t.actions = .ok s') :
    (ctlStep L tx s t).run L tx s.world = .ok s'.world ∧
    actionEvents L tx s.world (ctlStep L tx s t).actions = (sysActionEvents L tx s t.actions).map (SysEvent.ctl L) := by
  obtain ⟨h1, h2⟩ := ctlActions_run h
  cases t with
  | controller o accs data =>
    simp only [SysStep.actions, runSysActions, bind_ok, Except.ok.injEq, exists_eq_right] at h
    refine ⟨SysAction.run_ctl h, ?_⟩
    have : ctlActions L tx s (SysStep.controller o accs data).actions = (ctlStep L tx s (.controller o accs data)).actions := by
      simp only [SysStep.actions, ctlActions, h]; rfl
    rw [← this]; exact h2
  | foreign ix hn as => exact ⟨h1, h2⟩

theorem ctlStep_top {tx : TxInfo} {t : SysStep sc} {s : Sys sc} : (ctlStep L tx s t).top = t.top := by cases t <;> rfl

theorem ctlSteps_run {ixs : List TopIx} {i : Nat} {ts : List (SysStep sc)} {s s' : Sys sc} (h : runSysSteps L ixs i s ts = .ok s') :
    runSteps L ixs i s.world (ctlSteps L ixs i s ts) = .ok s'.world ∧
    stepEvents L ixs i s.world (ctlSteps L ixs i s ts) = (sysStepEvents L ixs i s ts).map (SysEvent.ctl L) ∧
    List.map Step.top (ctlSteps L ixs i s ts) = List.map SysStep.top ts := by
  induction ts generalizing s i with
  | nil => simp only [runSysSteps, Except.ok.injEq] at h; subst h; exact ⟨rfl, rfl, rfl⟩
  | cons t ts ih =>
    simp only [runSysSteps, bind_ok] at h
    obtain ⟨s1, h1, h⟩ := h
    obtain ⟨i1, i2, i3⟩ := ih h
    obtain ⟨c1, c2⟩ := ctlStep_run h1
    simp only [ctlSteps, h1, runSteps, stepEvents, sysStepEvents, c1, c2, i2, i3, List.map_cons, List.map_append, ctlStep_top]
    exact ⟨i1, trivial, trivial⟩

theorem SysTx.ctl_run (s : Sys sc) (t : SysTx sc) :
    Tx.apply L s.world (SysTx.ctl L s t) = (SysTx.apply L s t).world ∧
    Tx.events L s.world (SysTx.ctl L s t) = (SysTx.events L s t).map (SysEvent.ctl L) := by
  unfold SysTx.ctl SysTx.apply SysTx.events
  cases h : SysTx.run L s t with
  | error e => exact ⟨rfl, rfl⟩
  | ok s' =>
    obtain ⟨h1, h2, h3⟩ := ctlSteps_run h
    simp only [Tx.apply, Tx.events, Tx.run, h3, h1, h2, and_self]

/-- Every history of the system is, for the controller, the history `ctlHistory`: it ends in the same controller state and token ledger, and its committed events are
those of the system as the controller sees them. -/
theorem ctlHistory_run (s : Sys sc) (h : List (SysTx sc)) :
    runHistory L s.world (ctlHistory L s h) = (runSystem L s h).world ∧
    historyEvents L s.world (ctlHistory L s h) = (systemEvents L s h).map (SysEvent.ctl L) := by
  induction h generalizing s with
  | nil => exact ⟨rfl, rfl⟩
  | cons t h ih =>
    obtain ⟨c1, c2⟩ := SysTx.ctl_run (L := L) s t
    obtain ⟨i1, i2⟩ := ih (SysTx.apply L s t)
    constructor
    · show runHistory L (Tx.apply L s.world (SysTx.ctl L s t)) _ = _
      rw [c1]; exact i1
    · simp only [ctlHistory, historyEvents, systemEvents, c1, c2, i2, List.map_append]

/-! ### Chains of system events -/

/-- Consecutive events leading from one state to another. -/
inductive SysChain : Sys sc → List (SysEvent sc) → Sys sc → Prop
  | nil (s : Sys sc) : SysChain s [] s
  | cons {s' : Sys sc} {e : SysEvent sc} {es : List (SysEvent sc)} (h : SysChain e.post es s') : SysChain e.pre (e :: es) s'

theorem SysChain.append {s s' s'' : Sys sc} {es es' : List (SysEvent sc)} (h : SysChain s es s') (h' : SysChain s' es' s'') :
    SysChain s (es ++ es') s'' := by
  induction h with
  | nil => exact h'
  | cons _ ih => exact .cons (ih h')

theorem sysActionEvents_chain {tx : TxInfo} {as : List (SysAction sc)} {s s' : Sys sc} (h : runSysActions L tx s as = .ok s') :
    SysChain s (sysActionEvents L tx s as) s' ∧ ∀ e ∈ sysActionEvents L tx s as, e.act.run L e.tx e.pre = .ok e.post := by
  induction as generalizing s with
  | nil => simp only [runSysActions, Except.ok.injEq] at h; subst h; exact ⟨.nil _, by simp [sysActionEvents]⟩
  | cons a as ih =>
    simp only [runSysActions, bind_ok] at h
    obtain ⟨s1, h1, h⟩ := h
    obtain ⟨i1, i2⟩ := ih h
    simp only [sysActionEvents, h1, List.forall_mem_cons]
    exact ⟨.cons (e := ⟨tx, s, a, s1⟩) i1, trivial, i2⟩

theorem sysStepEvents_chain {ixs : List TopIx} {i : Nat} {ts : List (SysStep sc)} {s s' : Sys sc} (h : runSysSteps L ixs i s ts = .ok s') :
    SysChain s (sysStepEvents L ixs i s ts) s' ∧ ∀ e ∈ sysStepEvents L ixs i s ts, e.act.run L e.tx e.pre = .ok e.post := by
  induction ts generalizing s i with
  | nil => simp only [runSysSteps, Except.ok.injEq] at h; subst h; exact ⟨.nil _, by simp [sysStepEvents]⟩
  | cons t ts ih =>
    simp only [runSysSteps, bind_ok] at h
    obtain ⟨s1, h1, h⟩ := h
    obtain ⟨i1, i2⟩ := ih h
    obtain ⟨c1, c2⟩ := sysActionEvents_chain h1
    simp only [sysStepEvents, h1]
    exact ⟨c1.append i1, fun e he => (List.mem_append.1 he).elim (c2 e) (i2 e)⟩

/-- The committed events lead from the first state of a history to its last; each is a successful action. -/
theorem systemEvents_chain (L : RatioLib) (s : Sys sc) (h : List (SysTx sc)) :
    SysChain s (systemEvents L s h) (runSystem L s h) ∧ ∀ e ∈ systemEvents L s h, e.act.run L e.tx e.pre = .ok e.post := by
  induction h generalizing s with
  | nil => exact ⟨.nil _, by simp [systemEvents]⟩
  | cons t h ih =>
    obtain ⟨i1, i2⟩ := ih (SysTx.apply L s t)
    have : SysChain s (SysTx.events L s t) (SysTx.apply L s t) ∧ ∀ e ∈ SysTx.events L s t, e.act.run L e.tx e.pre = .ok e.post := by
      unfold SysTx.events SysTx.apply
      cases hr : SysTx.run L s t with
      | error e => exact ⟨.nil _, by simp⟩
      | ok s' => exact sysStepEvents_chain hr
    exact ⟨this.1.append i1, fun e he => (List.mem_append.1 he).elim (this.2 e) (i2 e)⟩

theorem SysChain.inv {P : Sys sc → Prop} {s s' : Sys sc} {es : List (SysEvent sc)} (hc : SysChain s es s')
    (hr : ∀ e ∈ es, e.act.run L e.tx e.pre = .ok e.post)
    (hstep : ∀ {tx : TxInfo} {a : SysAction sc} {s s' : Sys sc}, P s → a.run L tx s = .ok s' → P s') (h : P s) :
    (∀ e ∈ es, P e.pre ∧ P e.post) ∧ P s' := by
  induction hc with
  | nil => exact ⟨by simp, h⟩
  | cons _ ih =>
    rw [List.forall_mem_cons] at hr
    have := hstep h hr.1
    obtain ⟨i1, i2⟩ := ih hr.2 this
    exact ⟨List.forall_mem_cons.2 ⟨⟨h, this⟩, i1⟩, i2⟩

/-! ### The answers -/

theorem CalcReq.asIx_eq (q : CalcReq) : q.asIx = q.ix := by cases q <;> rfl
theorem PriceReq.asIx_eq (q : PriceReq) : q.asIx = q.flat := by cases q <;> rfl

theorem SysCfg.find_pool {pc : PoolCfg} (h : pc ∈ sc.pools) : sc.pools.find? (fun x => x.programId = pc.programId) = some pc := by
  have hd := sc.distinct
  simp only [List.nodup_cons] at hd
  have hn := hd.2.2.2.2
  clear hd
  generalize sc.pools = ps at h hn ⊢
  induction ps with
  | nil => cases h
  | cons a l ih =>
    simp only [List.map_cons, List.nodup_cons, List.mem_map, not_exists, not_and] at hn
    rcases List.mem_cons.1 h with rfl | h
    · simp
    · rw [List.find?_cons_of_neg (by simpa using fun e => hn.1 _ h e.symm)]
      exact ih h hn.2

theorem SysCfg.pool_ne_wsol {pc : PoolCfg} (h : pc ∈ sc.pools) : pc.programId ≠ sc.wsolCalc := by
  have hd := sc.distinct
  simp only [List.nodup_cons, List.mem_map, not_exists, not_and] at hd
  exact hd.2.2.2.1 _ h

theorem SysCfg.noFee_ne_flat : sc.noFee ≠ sc.fc.programId := by
  have hd := sc.distinct
  simp only [List.nodup_cons, List.mem_cons, not_or] at hd
  exact fun e => hd.2.1.1 e.symm

/-- The calculator programs of the repository answer as they do. -/
theorem Sys.served (s : Sys sc) (o : Outside sc) {pc : PoolCfg} (h : pc ∈ sc.pools) :
    (s.env L o).CalcServed L pc o.chain (calcHistory L pc (s.calcCalls pc.programId)) := by
  intro n w ms q r l ha
  simp only [Sys.env, Sys.answerCalc, if_neg (sc.pool_ne_wsol h), sc.find_pool h, CalcReq.asIx_eq] at ha
  split at ha
  · rename_i st' r' hc
    injection ha with ha; injection ha with ha _; subst ha
    exact ⟨st', hc⟩
  · cases ha
  · cases ha

/-- The wrapped SOL calculator answers as it does. -/
theorem Sys.served_wsol (s : Sys sc) (o : Outside sc) {n : Nat} {w : World} {ms : List Acc} {q : CalcReq} {r : Range} {l : Ledger}
    (h : (s.env L o).askCalc n w sc.wsolCalc ms q = .ok (r, l)) :
    ms.head?.map Acc.key = some sc.wsolMint ∧ AnyCalc.wsol.reply L q = .ok r := by
  simp only [Sys.env, Sys.answerCalc, if_pos] at h
  cases hc : wsolAnswer sc.wsolMint ms q with
  | error e => rw [hc] at h; cases h
  | ok x =>
    rw [hc] at h; injection h with h; injection h with h _; subst h
    unfold wsolAnswer at hc
    split at hc
    · simp only [bind_ok, checkKeys_ok] at hc
      obtain ⟨_, hk, hc⟩ := hc
      refine ⟨by simpa using hk, ?_⟩
      cases q <;> exact hc
    · cases hc

/-- The flat-fee program answers as it does. -/
theorem Sys.flatPriced (s : Sys sc) (o : Outside sc) : (s.env L o).FlatPriced L sc.fc (flatHistory L s.flatCalls) sc.fc.programId := by
  intro n w ms q r l h
  simp only [Sys.env, Sys.answerPrice, if_pos, PriceReq.asIx_eq] at h
  split at h
  · rename_i F' r' hc
    injection h with h; injection h with h _; subst h
    exact ⟨o.view, F', hc⟩
  · cases h
  · cases h

/-- If the programs of others only answer, all called programs only answer. -/
theorem Sys.quiet (s : Sys sc) {o : Outside sc} (h : o.other.Quiet) : (s.env L o).Quiet := by
  constructor
  · intro n w p ms q r l ha
    simp only [Sys.env, Sys.answerCalc] at ha
    split at ha
    · cases hc : wsolAnswer sc.wsolMint ms q with
      | error e => rw [hc] at ha; cases ha
      | ok x => rw [hc] at ha; injection ha with ha; injection ha with _ ha; exact ha.symm
    · split at ha
      · split at ha
        · injection ha with ha; injection ha with _ ha; exact ha.symm
        · cases ha
        · cases ha
      · exact h.calcF ha
  · intro n w p ms q r l ha
    simp only [Sys.env, Sys.answerPrice] at ha
    split at ha
    · split at ha
      · injection ha with ha; injection ha with _ ha; exact ha.symm
      · cases ha
      · cases ha
    · split at ha
      · injection ha with ha; injection ha with _ ha; exact ha.symm
      · exact h.priceF ha

end S
