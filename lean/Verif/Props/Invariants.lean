import Verif.Proofs.History
import Verif.Props.Data
import Verif.Example
/-
State invariants of every history: C01, C16, C19, C33 (stored numbers), C46, and the duplicate-free part of C18.
All hold after any history from a freshly deployed program and before and after every committed action inside it.
-/
set_option autoImplicit false
namespace S

/-- A statement about states that holds after any history, and around every committed action of it (so also inside
transactions). -/
def Always (cfg : Cfg) (L : RatioLib) (P : World → Prop) : Prop :=
  ∀ w₀, World.Fresh cfg w₀ → ∀ h : List (Tx cfg),
    P (runHistory L w₀ h) ∧ ∀ e ∈ historyEvents L w₀ h, P e.pre ∧ P e.post

theorem Always.of_inv {cfg : Cfg} {L : RatioLib} {P : World → Prop} (h : ∀ w, Inv cfg w → P w) : Always cfg L P :=
  fun _ hf hs => ⟨h _ (history_inv hf hs).2,
    fun e he => ⟨h _ ((history_inv hf hs).1 e he).1, h _ ((history_inv hf hs).1 e he).2⟩⟩

/-- C01: the recorded pool total is the sum of the recorded values of the listed LSTs. -/
theorem C01_total_is_sum (cfg : Cfg) (L : RatioLib) : Always cfg L fun w =>
    ∀ p, w.ctl.pool = some p → p.totalSolValue = (w.ctl.lsts.map fun s => s.solValue).sum :=
  .of_inv fun _ h p hp => h.ctl.total p hp

example : (Ex.st 9).ctl.pool.map (·.totalSolValue) = some 50136 ∧
    (Ex.st 9).ctl.lsts.map (·.solValue) = [32112, 18024] := by decide +kernel

/-- C16: the mints of the listed LSTs are pairwise distinct. -/
theorem C16_no_duplicate_lst (cfg : Cfg) (L : RatioLib) : Always cfg L fun w =>
    ∀ (i j : Nat) (si sj : LstState), w.ctl.lsts[i]? = some si → w.ctl.lsts[j]? = some sj → si.mint = sj.mint → i = j :=
  .of_inv fun _ h _ _ _ _ hi hj he => mint_index h.ctl.mints hi hj he

example : (Ex.st 9).ctl.lsts.map (·.mint) = [21, 22] := by decide +kernel

/-- C18 (first part): the disable-authority list has no duplicates. -/
theorem C18_nodup (cfg : Cfg) (L : RatioLib) : Always cfg L fun w => w.ctl.auths.Nodup :=
  .of_inv fun _ h => h.ctl.auths

example : (Ex.st2 11).ctl.auths = [50, 51] := by decide +kernel

/-- C19: both protocol fee rates are at most 10000 bps. -/
theorem C19_fee_rates (cfg : Cfg) (L : RatioLib) : Always cfg L fun w =>
    ∀ p, w.ctl.pool = some p → p.tradingProtocolFeeBps ≤ 10000 ∧ p.lpProtocolFeeBps ≤ 10000 :=
  .of_inv fun _ h p hp => h.ctl.fees p hp

example : (Ex.st2 15).ctl.pool.map (fun p => (p.tradingProtocolFeeBps, p.lpProtocolFeeBps)) = some (2000, 1000) := by
  decide +kernel

/-- C46: each listed LST has, at the addresses derived from its entry, a reserves account of that mint controlled by the pool
and a fee accumulator of that mint controlled by the fee authority, both of the token program owning the mint. -/
theorem C46_lst_accounts (cfg : Cfg) (L : RatioLib) : Always cfg L fun w =>
    ∀ s ∈ w.ctl.lsts, ∃ m res acc ra fa,
      w.led.mints s.mint = some m ∧ (m.program = cfg.splToken ∨ m.program = cfg.token22) ∧
      cfg.ata cfg.poolState m.program s.mint s.poolReservesBump = some res ∧
      cfg.ata cfg.protocolFee m.program s.mint s.protocolFeeAccumulatorBump = some acc ∧
      w.led.tok res = some ra ∧ ra.owner = cfg.poolState ∧ ra.mint = s.mint ∧ ra.program = m.program ∧
      w.led.tok acc = some fa ∧ fa.owner = cfg.protocolFee ∧ fa.mint = s.mint ∧ fa.program = m.program :=
  .of_inv fun w h s hs => by
    obtain ⟨m, res, acc, ra, fa, x⟩ := h.accs s hs
    exact ⟨m, res, acc, ra, fa, x.mint, x.prog, x.res_key, x.acc_key, x.res, x.ra_owner, x.ra_mint, x.ra_prog, x.acc,
      x.fa_owner, x.fa_mint, x.fa_prog⟩

example : (Ex.st 9).led.tok Ex.resA = some ⟨8, 21, 1, 32112⟩ ∧ (Ex.st 9).led.tok Ex.feeA = some ⟨8, 21, 5, 11⟩ := by
  decide +kernel

/-- Before Initialize nothing else exists. -/
theorem nothing_before_initialize (cfg : Cfg) (L : RatioLib) : Always cfg L fun w =>
    w.ctl.pool = none → w.ctl.lsts = [] ∧ w.ctl.auths = [] ∧ w.ctl.rebal = none :=
  .of_inv fun _ h hn => h.ctl.noPool hn

/-- The LP mint stays under the pool's control: the pool state PDA is its only mint and freeze authority, it belongs to the
SPL token program and has 9 decimals. -/
theorem C39_lp_mint_authority (cfg : Cfg) (L : RatioLib) : Always cfg L fun w =>
    ∀ p, w.ctl.pool = some p → ∃ m, w.led.mints p.lpTokenMint = some m ∧ m.program = cfg.splToken ∧ m.decimals = 9 ∧
      m.mintAuth = some cfg.poolState ∧ m.freezeAuth = some cfg.poolState :=
  .of_inv fun _ h p hp => h.lp p hp

example : (Ex.st 9).led.mints 20 = some ⟨8, 50000, 9, some 1, some 1⟩ := by decide +kernel

/-! ### C33 -/

/-- The rebalance record fits its types and points at a listed LST. -/
def RecInv (c : Ctl) : Prop :=
  ∀ rr, c.rebal = some rr → rr.oldTotalSolValue < U64 ∧ rr.dstLstIndex < 2 ^ 32 ∧ rr.dstLstIndex < c.lsts.length

theorem OnlyValues.length {c c' : Ctl} (h : OnlyValues c c') : c'.lsts.length = c.lsts.length := by
  have := congrArg List.length h.lsts; simpa using this

theorem RecInv.onlyValues {c c' : Ctl} (h : RecInv c) (ov : OnlyValues c c') : RecInv c' := by
  intro rr hr; rw [ov.rebal] at hr; rw [ov.length]; exact h rr hr

theorem RecInv.step {cfg : Cfg} {tx : TxInfo} {w : World} {accs : List Acc} {c' : Ctl} {ix : Ix}
    (h : RecInv w.ctl) (hi : CtlInv w.ctl) (hw : ix.Wf) (hs : CtlStep cfg tx w accs c' ix) : RecInv c' := by
  have noRec : ∀ {p : PoolState}, w.ctl.Active p → w.ctl.rebal = none := by
    intro p hp
    cases hr : w.ctl.rebal with
    | none => rfl
    | some rr => exact absurd hp.2.1 ((hi.rebal p hp.1).2 (by rw [hr]; simp))
  cases ix with
  | syncSolValue i => obtain ⟨p, _, hs⟩ := hs; exact h.onlyValues hs.onlyValues
  | swapExactIn args => obtain ⟨p, s, _, _, _, hs⟩ := hs; exact h.onlyValues hs.onlyValues
  | swapExactOut args => obtain ⟨p, s, _, _, _, hs⟩ := hs; exact h.onlyValues hs.onlyValues
  | addLiquidity args => obtain ⟨p, s, _, _, _, hs⟩ := hs; exact h.onlyValues hs.onlyValues
  | removeLiquidity args => obtain ⟨p, _, hs⟩ := hs; exact h.onlyValues hs.onlyValues
  | disableLstInput i => obtain ⟨p, s, _, _, _, rfl⟩ := hs; intro rr hr; simpa using h rr hr
  | enableLstInput i => obtain ⟨p, s, _, _, _, rfl⟩ := hs; intro rr hr; simpa using h rr hr
  | addLst =>
    obtain ⟨p, s, ha, _, _, _, _, _, _, _, rfl⟩ := hs
    intro rr hr; exact absurd (hr.symm.trans (noRec ha)) (by simp)
  | removeLst i =>
    obtain ⟨p, s, ha, _, _, _, rfl⟩ := hs
    intro rr hr; exact absurd (hr.symm.trans (noRec ha)) (by simp)
  | setSolValueCalculator i =>
    obtain ⟨p, s, prog, _, _, _, _, hs⟩ := hs
    refine RecInv.onlyValues ?_ hs.onlyValues
    intro rr hr; simpa using h rr hr
  | setAdmin => obtain ⟨p, k, _, _, rfl⟩ := hs; exact h
  | setProtocolFee args => obtain ⟨p, _, _, _, _, rfl⟩ := hs; exact h
  | setProtocolFeeBeneficiary => obtain ⟨p, k, _, _, rfl⟩ := hs; exact h
  | setPricingProgram => obtain ⟨p, k, _, _, _, rfl⟩ := hs; exact h
  | withdrawProtocolFees n => obtain ⟨p, _, _, rfl⟩ := hs; exact h
  | addDisablePoolAuthority => obtain ⟨p, k, _, _, _, rfl⟩ := hs; exact h
  | removeDisablePoolAuthority i => obtain ⟨p, k, _, _, _, rfl⟩ := hs; exact h
  | disablePool => obtain ⟨p, _, _, rfl⟩ := hs; exact h
  | enablePool => obtain ⟨p, _, _, _, rfl⟩ := hs; exact h
  | startRebalance args =>
    obtain ⟨p, s, c2, c3, p2, p3, dm, _, _, hd, _, _, _, s2, hp2, s3, hp3, _, rfl⟩ := hs
    intro rr hr
    injection hr with hr; subst hr
    refine ⟨(hi.syncs s2).total_u64 p2 hp2, hw.2.2.1, ?_⟩
    have := (List.getElem?_eq_some_iff.1 hd).1
    show args.dstLstIndex < c3.lsts.length
    rw [s3.onlyValues.length, s2.onlyValues.length]; exact this
  | endRebalance =>
    obtain ⟨p, rr, c1, p1, _, _, _, _, _, _, _, rfl⟩ := hs
    intro rr hr; cases hr
  | setRebalanceAuthority => obtain ⟨p, k, _, _, rfl⟩ := hs; exact h
  | «initialize» => obtain ⟨k, _, _, rfl⟩ := hs; exact h

/-- Both invariants, along histories. -/
theorem history_rec {cfg : Cfg} {L : RatioLib} {w : World} (hf : World.Fresh cfg w) (h : List (Tx cfg)) :
    (∀ e ∈ historyEvents L w h, (Inv cfg e.pre ∧ RecInv e.pre.ctl) ∧ (Inv cfg e.post ∧ RecInv e.post.ctl)) ∧
      Inv cfg (runHistory L w h) ∧ RecInv (runHistory L w h).ctl := by
  obtain ⟨c, r⟩ := historyEvents_chain L w h
  refine c.inv (L := L) (P := fun w => Inv cfg w ∧ RecInv w.ctl) r ?_ ⟨Inv.fresh hf, ?_⟩
  · intro tx a w w' hp hr
    refine ⟨hp.1.action hr, ?_⟩
    rcases Action.run_ok hr with ⟨hc, _⟩ | ⟨c, ix, _, _, hd, hp'⟩
    · rw [hc]; exact hp.2
    · exact hp.2.step hp.1.ctl (C38_decoded hd).1 (processIx_ctl hp')
  · intro rr hr; rw [hf.ctl] at hr; cases hr

theorem le_sum_of_mem {l : List Nat} {x : Nat} (h : x ∈ l) : x ≤ l.sum := by
  induction l with
  | nil => cases h
  | cons y l ih =>
    rcases List.mem_cons.1 h with rfl | h
    · simp
    · simp; have := ih h; omega

/-- C33: every number the program stores fits its machine type (u64 totals, values and balances, u16 fee rates, u32 index,
u8 flags and bumps), at every point of every history. -/
theorem C33_stored_numbers_fit (cfg : Cfg) (L : RatioLib) : Always cfg L fun w =>
    (∀ p, w.ctl.pool = some p → p.totalSolValue < 2 ^ 64 ∧ p.tradingProtocolFeeBps < 2 ^ 16 ∧
      p.lpProtocolFeeBps < 2 ^ 16 ∧ p.version < 2 ^ 8 ∧ p.isDisabled < 2 ^ 8 ∧ p.isRebalancing < 2 ^ 8) ∧
    (∀ s ∈ w.ctl.lsts, s.solValue < 2 ^ 64 ∧ s.isInputDisabled < 2 ^ 8 ∧ s.poolReservesBump < 2 ^ 8 ∧
      s.protocolFeeAccumulatorBump < 2 ^ 8) ∧
    (∀ rr, w.ctl.rebal = some rr → rr.oldTotalSolValue < 2 ^ 64 ∧ rr.dstLstIndex < 2 ^ 32) ∧
    (∀ k a, w.led.tok k = some a → a.amount < 2 ^ 64) ∧ (∀ k m, w.led.mints k = some m → m.supply < 2 ^ 64) := by
  have key : ∀ w, Inv cfg w ∧ RecInv w.ctl → _ := fun w h => by
    show (∀ p, w.ctl.pool = some p → p.totalSolValue < 2 ^ 64 ∧ p.tradingProtocolFeeBps < 2 ^ 16 ∧
      p.lpProtocolFeeBps < 2 ^ 16 ∧ p.version < 2 ^ 8 ∧ p.isDisabled < 2 ^ 8 ∧ p.isRebalancing < 2 ^ 8) ∧
      (∀ s ∈ w.ctl.lsts, s.solValue < 2 ^ 64 ∧ s.isInputDisabled < 2 ^ 8 ∧ s.poolReservesBump < 2 ^ 8 ∧
        s.protocolFeeAccumulatorBump < 2 ^ 8) ∧
      (∀ rr, w.ctl.rebal = some rr → rr.oldTotalSolValue < 2 ^ 64 ∧ rr.dstLstIndex < 2 ^ 32) ∧
      (∀ k a, w.led.tok k = some a → a.amount < 2 ^ 64) ∧ (∀ k m, w.led.mints k = some m → m.supply < 2 ^ 64)
    refine ⟨?_, ?_, ?_, h.1.wf.tok_u64, h.1.wf.mint_u64⟩
    · intro p hp
      have f := h.1.ctl.fees p hp
      have fl := h.1.ctl.flags p hp
      have v := h.1.ctl.version p hp
      refine ⟨h.1.ctl.total_u64 p hp, ?_, ?_, ?_, ?_, ?_⟩ <;> omega
    · intro s hs
      have hl := h.1.ctl.lst s hs
      refine ⟨?_, by omega, by omega, by omega⟩
      cases hp : w.ctl.pool with
      | none => rw [(h.1.ctl.noPool hp).1] at hs; cases hs
      | some p =>
        have h1 := h.1.ctl.total p hp
        have h2 := h.1.ctl.total_u64 p hp
        have h3 : s.solValue ≤ sumSol w.ctl.lsts := le_sum_of_mem (List.mem_map_of_mem hs)
        have : U64 = 2 ^ 64 := rfl
        omega
    · intro rr hr
      exact ⟨(h.2 rr hr).1, (h.2 rr hr).2.1⟩
  intro w₀ hf hs
  have hh := history_rec (L := L) hf hs
  exact ⟨key _ hh.2, fun e he => ⟨key _ (hh.1 e he).1, key _ (hh.1 e he).2⟩⟩

/-- C33, exactness: across every committed action the recorded total changes by exactly the change of the recorded
values, in unbounded integers. -/
theorem C33_total_exact (cfg : Cfg) (L : RatioLib) (w₀ : World) (hf : World.Fresh cfg w₀) (h : List (Tx cfg)) :
    ∀ e ∈ historyEvents L w₀ h, ∀ p p', e.pre.ctl.pool = some p → e.post.ctl.pool = some p' →
      (p'.totalSolValue : Int) - p.totalSolValue =
        (e.post.ctl.lsts.map fun s => s.solValue).sum - (e.pre.ctl.lsts.map fun s => s.solValue).sum := by
  intro e he p p' hp hp'
  have hh := (C01_total_is_sum cfg L w₀ hf h).2 e he
  rw [hh.1 p hp, hh.2 p' hp']

end S
