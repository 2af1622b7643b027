import Verif.Proofs.History
import Verif.Example
/-
C61: a listed LST's reserves and fee accumulator are the associated token accounts anyone derives from the mint.
-/
set_option autoImplicit false
namespace S

/-- The stored bumps are those `find` gives for the mint's token program. -/
def Canonical (cfg : Cfg) (w : World) : Prop := ∀ s ∈ w.ctl.lsts, ∃ m, w.led.mints s.mint = some m ∧
  s.poolReservesBump = (cfg.findAta cfg.poolState m.program s.mint).2 ∧
  s.protocolFeeAccumulatorBump = (cfg.findAta cfg.protocolFee m.program s.mint).2

theorem Canonical.mints {cfg : Cfg} {w w' : World} (h : Canonical cfg w) (hl : ∀ s ∈ w'.ctl.lsts, ∃ s0 ∈ w.ctl.lsts, s0.ident = s.ident)
    (hm : ∀ k m, w.led.mints k = some m → ∃ m', w'.led.mints k = some m' ∧ m'.program = m.program) : Canonical cfg w' := by
  intro s hs
  obtain ⟨s0, hs0, he⟩ := hl s hs
  simp only [LstState.ident, Prod.mk.injEq] at he
  obtain ⟨m, h1, h2, h3⟩ := h s0 hs0
  obtain ⟨m', h1', hp⟩ := hm _ _ h1
  exact ⟨m', he.1 ▸ h1', by rw [← he.2.1, ← he.1, hp]; exact h2, by rw [← he.2.2, ← he.1, hp]; exact h3⟩

theorem Canonical.ix {cfg : Cfg} {L : RatioLib} {env : Env cfg} {tx : TxInfo} {w w' : World} {accs : List Acc} {ix : Ix} (h : Canonical cfg w)
    (hix : processIx cfg L env tx w accs ix = .ok w') : Canonical cfg w' := by
  have hctl := processIx_ctl hix
  obtain ⟨ops, ht, hal⟩ := processIx_trace hix
  have hmn : ∀ k m, w.led.mints k = some m → ∃ m', w'.led.mints k = some m' ∧ m'.program = m.program := by
    intro k m hk
    obtain ⟨m', hm', hp, _⟩ := ht.mint hk
    exact ⟨m', hm', hp⟩
  by_cases hadd : ix = .addLst
  · subst hadd
    obtain ⟨r⟩ := processAddLst_inv hix
    have e1 := congrArg World.ctl r.eq
    intro s hs
    rw [e1] at hs
    rcases List.mem_append.1 hs with hs | hs
    · obtain ⟨m, h1, h2, h3⟩ := h s hs
      obtain ⟨m', h1', hp⟩ := hmn _ _ h1
      exact ⟨m', h1', by rw [hp]; exact h2, by rw [hp]; exact h3⟩
    · simp at hs; subst hs
      obtain ⟨m', h1', hp⟩ := hmn _ _ r.hm
      exact ⟨m', h1', by rw [hp], by rw [hp]⟩
  · refine h.mints (fun s hs => ?_) hmn
    by_cases hrem : ∃ i, ix = .removeLst i
    · obtain ⟨i, rfl⟩ := hrem
      obtain ⟨r⟩ := processRemoveLst_inv hix
      have e1 := congrArg World.ctl r.eq
      rw [e1] at hs
      exact ⟨s, List.mem_of_mem_eraseIdx hs, rfl⟩
    · have hid := hctl.ident hadd (fun i hi => hrem ⟨i, hi⟩)
      have : s.ident ∈ w.ctl.lsts.map LstState.ident := by rw [← hid]; exact List.mem_map_of_mem hs
      obtain ⟨s0, hs0, he0⟩ := List.mem_map.1 this
      exact ⟨s0, hs0, he0⟩

theorem Canonical.action {cfg : Cfg} {L : RatioLib} {tx : TxInfo} {w w' : World} {a : Action cfg} (h : Canonical cfg w)
    (hr : a.run L tx w = .ok w') : Canonical cfg w' := by
  rcases Action.run_ok hr with ⟨hc, he⟩ | ⟨c, ix, rfl, hsig, hdec, hix⟩
  · refine h.mints (fun s hs => ⟨s, hc ▸ hs, rfl⟩) fun k m hk => ?_
    obtain ⟨m', hm', hp, _⟩ := he.mint k m hk
    exact ⟨m', hm', hp⟩
  · exact h.ix hix

theorem Reachable.canonical {cfg : Cfg} {L : RatioLib} {w : World} (h : Reachable cfg L w) : Canonical cfg w := by
  obtain ⟨w₀, hf, h, rfl⟩ := h
  obtain ⟨c, r⟩ := historyEvents_chain L w₀ h
  exact (c.inv (L := L) r (fun h hr => h.action hr) (fun s hs => by rw [hf.ctl] at hs; simp [Ctl.init] at hs)).2

/-- C61: in every reachable state, the associated token account of the pool state for a listed mint and its token program (as anyone derives it) is the LST's
reserves: it exists, belongs to the pool, holds that mint, and is the account every instruction computes from the stored bump. The same holds for the
associated token account of the protocol fee PDA and the fee accumulator. -/
theorem C61_canonical {cfg : Cfg} {L : RatioLib} {w : World} (h : Reachable cfg L w) {s : LstState} (hs : s ∈ w.ctl.lsts) :
    ∃ m ra fa, w.led.mints s.mint = some m ∧ (m.program = cfg.splToken ∨ m.program = cfg.token22) ∧
      w.led.tok (cfg.findAta cfg.poolState m.program s.mint).1 = some ra ∧ ra.owner = cfg.poolState ∧ ra.mint = s.mint ∧ ra.program = m.program ∧
      cfg.ata cfg.poolState m.program s.mint s.poolReservesBump = some (cfg.findAta cfg.poolState m.program s.mint).1 ∧
      w.led.tok (cfg.findAta cfg.protocolFee m.program s.mint).1 = some fa ∧ fa.owner = cfg.protocolFee ∧ fa.mint = s.mint ∧ fa.program = m.program ∧
      cfg.ata cfg.protocolFee m.program s.mint s.protocolFeeAccumulatorBump = some (cfg.findAta cfg.protocolFee m.program s.mint).1 := by
  obtain ⟨m, res, acc, ra, fa, hl⟩ := h.inv.accs s hs
  obtain ⟨m', h1, h2, h3⟩ := h.canonical s hs
  have := hl.mint
  rw [h1] at this; injection this with this; subst this
  have e1 := hl.res_key
  have e2 := hl.acc_key
  rw [h2, cfg.findAta_ata] at e1
  rw [h3, cfg.findAta_ata] at e2
  injection e1 with e1; injection e2 with e2
  subst e1 e2
  exact ⟨m', ra, fa, h1, hl.prog, hl.res, hl.ra_owner, hl.ra_mint, hl.ra_prog, hl.res_key, hl.acc, hl.fa_owner, hl.fa_mint, hl.fa_prog, hl.acc_key⟩

example : Reachable Ex.cfg .ex (Ex.st 7) ∧ (Ex.st 7).ctl.lsts.map (·.mint) = [21, 22] := ⟨Ex.st_reachable 7, by decide +kernel⟩

end S
