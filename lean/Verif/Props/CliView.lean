import Verif.Props.CliSync
import Verif.Props.Canonical
/-
C73: what `view` of the command-line tool prints.
-/
set_option autoImplicit false
namespace S

/-- Computing over a list succeeds if it does for every element, and gives the results in order. -/
theorem mapM_all {α β : Type} {f : α → R β} {l : List α} (h : ∀ a ∈ l, ∃ b, f a = .ok b) :
    ∃ bs, l.mapM f = .ok bs ∧ List.Forall₂ (fun a b => f a = .ok b) l bs := by
  induction l with
  | nil => exact ⟨[], rfl, .nil⟩
  | cons a l ih =>
    obtain ⟨b, hb⟩ := h a (List.mem_cons_self ..)
    obtain ⟨bs, h1, h2⟩ := ih fun a ha => h a (List.mem_cons_of_mem _ ha)
    exact ⟨b :: bs, by simp [List.mapM_cons, hb, h1, bind, Except.bind, pure, Except.pure], .cons hb h2⟩

/-- What there is to see of an LST: its record, whether it may be put in, and the balances of the associated token accounts of the pool and of the
protocol fee PDA for its mint (as anyone derives them). -/
structure LstView.Shows (cfg : Cfg) (w : World) (s : LstState) (v : LstView) : Prop where
  lst : v.lst = s
  inputDisabled : v.inputDisabled = true ↔ s.isInputDisabled ≠ 0
  accounts : ∃ m ra fa, w.led.mints s.mint = some m ∧ v.reservesAddr = (cfg.findAta cfg.poolState m.program s.mint).1 ∧
    w.led.tok v.reservesAddr = some ra ∧ v.reserves = ra.amount ∧ v.feesAddr = (cfg.findAta cfg.protocolFee m.program s.mint).1 ∧
    w.led.tok v.feesAddr = some fa ∧ v.fees = fa.amount

/-- C73: in every reachable state in which the pool is initialised, if the Sanctum list has the right token programs, `view` succeeds and shows the supply
of the LP mint, the pool state and, for each listed LST in order, its record and the balances of its reserves and of its fee accumulator; the values
shown add up to the total shown. -/
theorem C73_view {J : JupCfg} {L : RatioLib} {w : World} {p : PoolState} {list : List SanctumLst} (hreach : Reachable J.cfg L w)
    (hp : w.ctl.pool = some p) (hlist : ∀ e ∈ list, ∀ m, w.led.mints e.mint = some m → e.tokenProgram = m.program) :
    ∃ v lp, viewPool J list w = .ok v ∧ v.pool = p ∧ w.led.mints p.lpTokenMint = some lp ∧ v.supply = lp.supply ∧
      List.Forall₂ (LstView.Shows J.cfg w) w.ctl.lsts v.lsts ∧ (v.lsts.map fun x => x.lst.solValue).sum = v.pool.totalSolValue := by
  have hone : ∀ s ∈ w.ctl.lsts, ∃ v, viewLst J list w s = .ok v ∧ v.Shows J.cfg w s := by
    intro s hs
    obtain ⟨m, ra, fa, hm, -, h1, -, -, -, h2, h3, -, -, -, h4⟩ := C61_canonical hreach hs
    have htp : viewTokenProgram w s.mint (list.find? fun e => e.mint = s.mint) = .ok m.program := by
      cases hf : list.find? fun e => e.mint = s.mint with
      | none => simp only [viewTokenProgram, hm, okOr, bind, Except.bind, pure, Except.pure]
      | some e =>
        have : e.mint = s.mint := by simpa using List.find?_some hf
        simp only [viewTokenProgram, hlist e (List.mem_of_find?_eq_some hf) m (by rw [this]; exact hm)]
    refine ⟨⟨s, list.find? fun e => e.mint = s.mint, decide (isTrue s.isInputDisabled), _, ra.amount, _, fa.amount⟩, ?_, rfl, ?_,
      m, ra, fa, hm, rfl, h1, rfl, rfl, h3, rfl⟩
    · simp only [viewLst, bind_ok, poolReserves_ok, feeAccumulator_ok, tokenBalance_ok, pure_ok]
      exact ⟨_, htp, _, h2, _, h4, _, ⟨ra, h1, rfl⟩, _, ⟨fa, h3, rfl⟩, rfl⟩
    · simp [isTrue]
  obtain ⟨lp, hlp, -⟩ := hreach.inv.lp p hp
  obtain ⟨vs, hvs, hall⟩ := mapM_all fun s hs => (hone s hs).imp fun v h => h.1
  have hshow : List.Forall₂ (LstView.Shows J.cfg w) w.ctl.lsts vs := by
    refine List.forall₂_iff_get.2 ⟨hall.length_eq, fun i h1 h2 => ?_⟩
    have h3 := (List.forall₂_iff_get.1 hall).2 i h1 h2
    obtain ⟨v, h4, h5⟩ := hone _ (List.get_mem w.ctl.lsts ⟨i, h1⟩)
    rw [h4] at h3; injection h3 with h3
    rw [← h3]; exact h5
  have hmap : ∀ (ls : List LstState) (vs : List LstView), List.Forall₂ (LstView.Shows J.cfg w) ls vs →
      (vs.map fun x => x.lst.solValue) = ls.map LstState.solValue := by
    intro ls vs h
    induction h with
    | nil => rfl
    | cons a _ ih => simp only [List.map_cons, ih, a.lst]
  refine ⟨⟨lp.supply, p, vs⟩, lp, ?_, rfl, hlp, rfl, hshow, ?_⟩
  · simp only [viewPool, bind_ok, okOr_ok, pure_ok]
    exact ⟨p, hp, lp, hlp, vs, hvs, rfl⟩
  · rw [hmap _ _ hshow]
    exact (hreach.inv.ctl.total p hp).symm

namespace Ex

example : (viewPool jup jupList stale).toOption.map (fun v => (v.supply, v.pool.totalSolValue)) = some (60000, 60055) ∧
    (viewPool jup jupList stale).toOption.map (fun v => v.lsts.map fun x => (x.lst.solValue, x.reserves, x.fees)) =
      some [(36031, 41031, 0), (24024, 16716, 4)] ∧
    (viewPool jup jupList stale).toOption.map (fun v => v.lsts.map fun x => x.inputDisabled) = some [false, false] := by decide +kernel

example : ∀ e ∈ jupList, ∀ m, stale.led.mints e.mint = some m → e.tokenProgram = m.program := by
  intro e he m hm
  have h : ∀ e ∈ jupList, (stale.led.mints e.mint).map Mint.program = none ∨ (stale.led.mints e.mint).map Mint.program = some e.tokenProgram := by
    decide +kernel
  have := h e he
  rw [hm] at this
  rcases this with this | this
  · cases this
  · injection this with this; exact this.symm

end Ex
end S
