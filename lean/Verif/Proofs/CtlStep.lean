import Verif.Proofs.Trace
import Verif.History
/-
What every instruction does to the controller's accounts, and the invariant they keep.
-/
set_option autoImplicit false
namespace S

/-- Any number of recorded-value updates. -/
inductive Syncs : Ctl → Ctl → Prop
  | refl (c : Ctl) : Syncs c c
  | step {c c1 c2 : Ctl} {i v : Nat} (h : Syncs c c1) (hv : v < U64) (hs : c1.sync i v = .ok c2) : Syncs c c2

theorem Syncs.one {c c1 : Ctl} {i v : Nat} (hv : v < U64) (hs : c.sync i v = .ok c1) : Syncs c c1 := .step (.refl c) hv hs

theorem Syncs.trans {a b c : Ctl} (h : Syncs a b) (h' : Syncs b c) : Syncs a c := by
  induction h' with
  | refl => exact h
  | step _ hv hs ih => exact .step ih hv hs

theorem SyncRun.syncs {cfg : Cfg} {env : Env cfg} {n : Nat} {w : World} {res : Pubkey} {c : CalcCpi} {i : Nat}
    {w' : World} {acc : TokenAcc} {r : Range} (h : SyncRun env n w res c i w' acc r) : Syncs w.ctl w'.ctl :=
  .one h.rmin h.sync

/-- The LST entry without its recorded value. -/
def LstState.config (s : LstState) : LstState := { s with solValue := 0 }

/-- `c'` differs from `c` at most in recorded SOL values. -/
structure OnlyValues (c c' : Ctl) : Prop where
  pool : ∀ p, c.pool = some p → ∃ t, c'.pool = some { p with totalSolValue := t }
  poolNone : c.pool = none → c'.pool = none
  lsts : c'.lsts.map LstState.config = c.lsts.map LstState.config
  auths : c'.auths = c.auths
  rebal : c'.rebal = c.rebal

theorem OnlyValues.refl (c : Ctl) : OnlyValues c c := ⟨fun _ h => ⟨_, h⟩, id, rfl, rfl, rfl⟩

theorem OnlyValues.trans {a b c : Ctl} (h : OnlyValues a b) (h' : OnlyValues b c) : OnlyValues a c where
  pool p hp := by
    obtain ⟨t, ht⟩ := h.pool p hp
    obtain ⟨t', ht'⟩ := h'.pool _ ht
    exact ⟨t', ht'⟩
  poolNone hn := h'.poolNone (h.poolNone hn)
  lsts := h'.lsts.trans h.lsts
  auths := h'.auths.trans h.auths
  rebal := h'.rebal.trans h.rebal

theorem map_set_eq {α β : Type} (f : α → β) (l : List α) (i : Nat) (s s' : α) (h : l[i]? = some s) (hf : f s' = f s) :
    (l.set i s').map f = l.map f := by
  induction l generalizing i with
  | nil => rfl
  | cons x l ih =>
    cases i with
    | zero => simp at h; subst h; simp [hf]
    | succ i => simp at h; simp [ih i h]

theorem sync_onlyValues {c c' : Ctl} {i v : Nat} (h : c.sync i v = .ok c') : OnlyValues c c' := by
  obtain ⟨p, s, hf⟩ := ctlSync_ok.1 h
  have e := hf.eq
  subst e
  refine ⟨?_, ?_, ?_, rfl, rfl⟩
  · intro p' hp'; rw [hf.pool] at hp'; injection hp' with hp'; subst hp'; exact ⟨_, rfl⟩
  · intro hn; rw [hf.pool] at hn; cases hn
  · exact map_set_eq _ _ _ s _ hf.lst rfl

theorem Syncs.onlyValues {c c' : Ctl} (h : Syncs c c') : OnlyValues c c' := by
  induction h with
  | refl => exact .refl _
  | step _ _ hs ih => exact ih.trans (sync_onlyValues hs)

/-- The pool exists and is neither rebalancing nor disabled. -/
def Ctl.Active (c : Ctl) (p : PoolState) : Prop := c.pool = some p ∧ p.isRebalancing = 0 ∧ p.isDisabled = 0

/-- What a successful instruction does to the controller's accounts. -/
def CtlStep (cfg : Cfg) (tx : TxInfo) (w : World) (accs : List Acc) (c' : Ctl) : Ix → Prop
  | .syncSolValue _ => ∃ p, w.ctl.Active p ∧ Syncs w.ctl c'
  | .swapExactIn a => ∃ p s, w.ctl.Active p ∧ w.ctl.lsts[a.srcLstIndex]? = some s ∧ s.isInputDisabled = 0 ∧
      Syncs w.ctl c'
  | .swapExactOut a => ∃ p s, w.ctl.Active p ∧ w.ctl.lsts[a.srcLstIndex]? = some s ∧ s.isInputDisabled = 0 ∧
      Syncs w.ctl c'
  | .addLiquidity a => ∃ p s, w.ctl.Active p ∧ w.ctl.lsts[a.lstIndex]? = some s ∧ s.isInputDisabled = 0 ∧
      Syncs w.ctl c'
  | .removeLiquidity _ => ∃ p, w.ctl.Active p ∧ Syncs w.ctl c'
  | .disableLstInput i => ∃ p s, w.ctl.Active p ∧ SignedBy accs p.admin ∧ w.ctl.lsts[i]? = some s ∧
      c' = { w.ctl with lsts := w.ctl.lsts.set i { s with isInputDisabled := 1 } }
  | .enableLstInput i => ∃ p s, w.ctl.Active p ∧ SignedBy accs p.admin ∧ w.ctl.lsts[i]? = some s ∧
      c' = { w.ctl with lsts := w.ctl.lsts.set i { s with isInputDisabled := 0 } }
  | .addLst => ∃ p s, w.ctl.Active p ∧ SignedBy accs p.admin ∧ (∀ t ∈ w.ctl.lsts, t.mint ≠ s.mint) ∧
      s.solValue = 0 ∧ s.isInputDisabled = 0 ∧ s.poolReservesBump < 256 ∧ s.protocolFeeAccumulatorBump < 256 ∧
      w.led.exec s.solValueCalculator = true ∧
      c' = { w.ctl with lsts := w.ctl.lsts ++ [s] }
  | .removeLst i => ∃ p s, w.ctl.Active p ∧ SignedBy accs p.admin ∧ w.ctl.lsts[i]? = some s ∧ s.solValue = 0 ∧
      c' = { w.ctl with lsts := w.ctl.lsts.eraseIdx i }
  | .setSolValueCalculator i => ∃ p s prog, w.ctl.Active p ∧ SignedBy accs p.admin ∧ w.ctl.lsts[i]? = some s ∧
      w.led.exec prog = true ∧
      Syncs { w.ctl with lsts := w.ctl.lsts.set i { s with solValueCalculator := prog } } c'
  | .setAdmin => ∃ p k, w.ctl.pool = some p ∧ SignedBy accs p.admin ∧
      c' = { w.ctl with pool := some { p with admin := k } }
  | .setProtocolFee args => ∃ p, w.ctl.Active p ∧ SignedBy accs p.admin ∧
      (∀ f ∈ args.newLpProtocolFeeBps, f ≤ BPS) ∧ (∀ f ∈ args.newTradingProtocolFeeBps, f ≤ BPS) ∧
      c' = { w.ctl with pool := some { p with
        tradingProtocolFeeBps := args.newTradingProtocolFeeBps.getD p.tradingProtocolFeeBps
        lpProtocolFeeBps := args.newLpProtocolFeeBps.getD p.lpProtocolFeeBps } }
  | .setProtocolFeeBeneficiary => ∃ p k, w.ctl.Active p ∧ SignedBy accs p.protocolFeeBeneficiary ∧
      c' = { w.ctl with pool := some { p with protocolFeeBeneficiary := k } }
  | .setPricingProgram => ∃ p k, w.ctl.Active p ∧ SignedBy accs p.admin ∧ w.led.exec k = true ∧
      c' = { w.ctl with pool := some { p with pricingProgram := k } }
  | .withdrawProtocolFees _ => ∃ p, w.ctl.Active p ∧ SignedBy accs p.protocolFeeBeneficiary ∧ c' = w.ctl
  | .addDisablePoolAuthority => ∃ p k, w.ctl.pool = some p ∧ SignedBy accs p.admin ∧ k ∉ w.ctl.auths ∧
      c' = { w.ctl with auths := w.ctl.auths ++ [k] }
  | .removeDisablePoolAuthority i => ∃ p k, w.ctl.pool = some p ∧ w.ctl.auths[i]? = some k ∧
      (SignedBy accs p.admin ∨ SignedBy accs k) ∧ c' = { w.ctl with auths := w.ctl.auths.eraseIdx i }
  | .disablePool => ∃ p, w.ctl.Active p ∧ (SignedBy accs p.admin ∨ ∃ k ∈ w.ctl.auths, SignedBy accs k) ∧
      c' = { w.ctl with pool := some { p with isDisabled := 1 } }
  | .enablePool => ∃ p, w.ctl.pool = some p ∧ p.isDisabled ≠ 0 ∧ SignedBy accs p.admin ∧
      c' = { w.ctl with pool := some { p with isDisabled := 0 } }
  | .startRebalance args => ∃ p s c2 c3 p2 p3 dstMint, w.ctl.Active p ∧ SignedBy accs p.rebalanceAuthority ∧
      w.ctl.lsts[args.dstLstIndex]? = some s ∧ s.isInputDisabled = 0 ∧ s.mint = dstMint ∧
      verifySucceedingEnd cfg tx dstMint = .ok () ∧
      Syncs w.ctl c2 ∧ c2.pool = some p2 ∧ Syncs c2 c3 ∧ c3.pool = some p3 ∧ c3.rebal = none ∧
      c' = { c3 with rebal := some ⟨p2.totalSolValue, args.dstLstIndex⟩, pool := some { p3 with isRebalancing := 1 } }
  | .endRebalance => ∃ p rr c1 p1, w.ctl.pool = some p ∧ p.isRebalancing ≠ 0 ∧ w.ctl.rebal = some rr ∧
      SignedBy accs p.rebalanceAuthority ∧ Syncs { w.ctl with pool := some { p with isRebalancing := 0 } } c1 ∧
      c1.pool = some p1 ∧ rr.oldTotalSolValue ≤ p1.totalSolValue ∧ c' = { c1 with rebal := none }
  | .setRebalanceAuthority => ∃ p k, w.ctl.Active p ∧ (SignedBy accs p.admin ∨ SignedBy accs p.rebalanceAuthority) ∧
      c' = { w.ctl with pool := some { p with rebalanceAuthority := k } }
  | .initialize => ∃ k, w.ctl.pool = none ∧ SignedBy accs cfg.initialAuthority ∧
      c' = { w.ctl with pool := some ⟨0, 1000, 1000, 1, 0, 0, cfg.initialAuthority, cfg.initialAuthority,
        cfg.initialAuthority, cfg.flatFeeProgram, k⟩ }

theorem SwapRun.syncs {cfg : Cfg} {L : RatioLib} {env : Env cfg} {w : World} {accs : List Acc}
    {srcAccs dstAccs srcIdx dstIdx srcIn dstOut : Nat} {w' : World}
    (r : SwapRun L env w accs srcAccs dstAccs srcIdx dstIdx srcIn dstOut w') : Syncs w.ctl w'.ctl :=
  r.sync0.syncs.trans <| r.sync1.syncs.trans <| r.fin.sync5.syncs.trans r.fin.sync6.syncs

theorem processIx_ctl {cfg : Cfg} {L : RatioLib} {env : Env cfg} {tx : TxInfo} {w w' : World} {accs : List Acc}
    {ix : Ix} (h : processIx cfg L env tx w accs ix = .ok w') : CtlStep cfg tx w accs w'.ctl ix := by
  cases ix with
  | syncSolValue i =>
    obtain ⟨r⟩ := processSync_inv h
    exact ⟨r.p, ⟨r.pool, r.notReb, r.notDis⟩, r.run.syncs⟩
  | swapExactIn args =>
    obtain ⟨_, ⟨r⟩⟩ := processSwapExactIn_inv h
    exact ⟨r.p, r.src, ⟨r.ver.pool, r.ver.notReb, r.ver.notDis⟩, r.ver.srcSel.get, r.ver.inputEnabled,
      r.toSwapRun.syncs⟩
  | swapExactOut args =>
    obtain ⟨_, ⟨r⟩⟩ := processSwapExactOut_inv h
    exact ⟨r.p, r.src, ⟨r.ver.pool, r.ver.notReb, r.ver.notDis⟩, r.ver.srcSel.get, r.ver.inputEnabled,
      r.toSwapRun.syncs⟩
  | addLiquidity args =>
    obtain ⟨r⟩ := processAddLiquidity_inv h
    exact ⟨r.p, r.s, ⟨r.ver.pool, r.ver.notReb, r.ver.notDis⟩, r.ver.sel.get, r.ver.inputEnabled rfl,
      r.sync0.syncs.trans r.sync3.syncs⟩
  | removeLiquidity args =>
    obtain ⟨r⟩ := processRemoveLiquidity_inv h
    exact ⟨r.p, ⟨r.ver.pool, r.ver.notReb, r.ver.notDis⟩, r.sync0.syncs.trans r.sync3.syncs⟩
  | disableLstInput i =>
    obtain ⟨a, s, p, hl, hs, hp, hk, hsig, _, hr, hd, rfl⟩ := processSetLstInput_inv (flag := 1) h
    exact ⟨p, s, ⟨hp, hr, hd⟩, ⟨_, a.load_mem hl, hsig, hk⟩, hs, rfl⟩
  | enableLstInput i =>
    obtain ⟨a, s, p, hl, hs, hp, hk, hsig, _, hr, hd, rfl⟩ := processSetLstInput_inv (flag := 0) h
    exact ⟨p, s, ⟨hp, hr, hd⟩, ⟨_, a.load_mem hl, hsig, hk⟩, hs, rfl⟩
  | addLst =>
    obtain ⟨r⟩ := processAddLst_inv h
    exact ⟨r.p, _, ⟨r.pool, r.notReb, r.notDis⟩, ⟨_, r.a.load_mem r.load, r.signer, r.admin⟩, r.fresh, rfl, rfl,
      cfg.findAta_u8 _ _ _, cfg.findAta_u8 _ _ _, r.exec, by rw [r.eq]⟩
  | removeLst i =>
    obtain ⟨r⟩ := processRemoveLst_inv h
    exact ⟨r.p, r.s, ⟨r.pool, r.notReb, r.notDis⟩, ⟨_, r.a.load_mem r.load, r.signer, r.admin⟩, r.sel.get, r.sol0,
      by rw [r.eq]⟩
  | setSolValueCalculator i =>
    obtain ⟨r⟩ := processSetSolValueCalculator_inv h
    exact ⟨r.p, r.s, r.c.program, ⟨r.pool, r.notReb, r.notDis⟩, ⟨_, r.a.load_mem r.load, r.signer, r.admin⟩,
      r.sel.get, r.exec, r.run.syncs⟩
  | setAdmin =>
    obtain ⟨a, p, hl, hp, hk, hsig, rfl⟩ := processSetAdmin_inv h
    exact ⟨p, _, hp, ⟨_, a.load_mem hl, hsig, hk⟩, rfl⟩
  | setProtocolFee args =>
    obtain ⟨a, p, hl, hp, hk, hsig, hr, hd, f1, f2, rfl⟩ := processSetProtocolFee_inv h
    exact ⟨p, ⟨hp, hr, hd⟩, ⟨_, a.load_mem hl, hsig, hk⟩, f1, f2, rfl⟩
  | setProtocolFeeBeneficiary =>
    obtain ⟨a, p, hl, hp, hk, hsig, hr, hd, rfl⟩ := processSetBeneficiary_inv h
    exact ⟨p, _, ⟨hp, hr, hd⟩, ⟨_, a.load_mem hl, hsig, hk⟩, rfl⟩
  | setPricingProgram =>
    obtain ⟨a, p, hl, hp, hk, hsig, hr, hd, hex, rfl⟩ := processSetPricing_inv h
    exact ⟨p, _, ⟨hp, hr, hd⟩, ⟨_, a.load_mem hl, hsig, hk⟩, hex, rfl⟩
  | withdrawProtocolFees n =>
    obtain ⟨r⟩ := processWithdraw_inv h
    exact ⟨r.p, ⟨r.pool, r.notReb, r.notDis⟩, ⟨_, r.a.load_mem r.load, r.signer, r.beneficiary⟩, by rw [r.eq]⟩
  | addDisablePoolAuthority =>
    obtain ⟨a, p, hl, hp, hk, hsig, hni, rfl⟩ := processAddAuth_inv h
    exact ⟨p, _, hp, ⟨_, a.load_mem hl, hsig, hk⟩, hni, rfl⟩
  | removeDisablePoolAuthority i =>
    obtain ⟨a, p, hl, hp, hau, hsig, hor, rfl⟩ := processRemoveAuth_inv h
    exact ⟨p, _, hp, hau, hor.imp (fun e => ⟨_, a.load_mem hl, hsig, e⟩) (fun e => ⟨_, a.load_mem hl, hsig, e⟩), rfl⟩
  | disablePool =>
    obtain ⟨a, p, hl, hp, hsig, hr, hd, hor, rfl⟩ := processDisablePool_inv h
    exact ⟨p, ⟨hp, hr, hd⟩, hor.imp (fun e => ⟨_, a.load_mem hl, hsig, e⟩)
      (fun e => ⟨_, e, _, a.load_mem hl, hsig, rfl⟩), rfl⟩
  | enablePool =>
    obtain ⟨a, p, hl, hp, hk, hsig, hd, rfl⟩ := processEnablePool_inv h
    exact ⟨p, hp, hd, ⟨_, a.load_mem hl, hsig, hk⟩, rfl⟩
  | startRebalance args =>
    obtain ⟨r⟩ := processStartRebalance_inv h
    exact ⟨r.p, r.dst, r.w2.ctl, r.w3.ctl, r.p2, r.p3, r.a.dstLstMint.key, ⟨r.pool, r.notReb, r.notDis⟩,
      ⟨_, r.a.load_mem r.load, r.signer, r.auth⟩, r.dstSel.get, r.inputEnabled, r.dstSel.mint_eq, r.succ,
      r.sync0.syncs.trans r.sync1.syncs, r.pool2, r.sync2.syncs, r.pool3, r.noRec,
      by have e := congrArg World.ctl r.eq; exact e⟩
  | endRebalance =>
    obtain ⟨r⟩ := processEndRebalance_inv h
    exact ⟨r.p, r.rr, r.w1.ctl, r.p1, r.pool, r.reb, r.record, ⟨_, r.a.load_mem r.load, r.signer, r.auth⟩,
      r.sync0.syncs, r.pool1, r.noLoss, by have e := congrArg World.ctl r.eq; exact e⟩
  | setRebalanceAuthority =>
    obtain ⟨a, p, hl, hp, hsig, hr, hd, hor, rfl⟩ := processSetRebAuth_inv h
    exact ⟨p, _, ⟨hp, hr, hd⟩, hor.imp (fun e => ⟨_, a.load_mem hl, hsig, e⟩) (fun e => ⟨_, a.load_mem hl, hsig, e⟩),
      rfl⟩
  | «initialize» =>
    obtain ⟨r⟩ := processInitialize_inv h
    exact ⟨r.a.lpTokenMint.key, r.fresh, ⟨_, r.a.load_mem r.load, r.signer, r.authority⟩,
      by have e := congrArg World.ctl r.eq; exact e⟩

/-! ### The invariant -/

/-- Sum of the recorded SOL values. -/
def sumSol (ls : List LstState) : Nat := (ls.map LstState.solValue).sum

theorem sum_set {α : Type} (f : α → Nat) (l : List α) (i : Nat) (s s' : α) (h : l[i]? = some s) :
    ((l.set i s').map f).sum + f s = (l.map f).sum + f s' := by
  induction l generalizing i with
  | nil => simp at h
  | cons x l ih =>
    cases i with
    | zero => simp at h; subst h; simp; omega
    | succ i => simp at h; have := ih i h; simp only [List.set_cons_succ, List.map_cons, List.sum_cons]; omega

theorem sum_eraseIdx {α : Type} (f : α → Nat) (l : List α) (i : Nat) (s : α) (h : l[i]? = some s) :
    ((l.eraseIdx i).map f).sum + f s = (l.map f).sum := by
  induction l generalizing i with
  | nil => simp at h
  | cons x l ih =>
    cases i with
    | zero => simp at h; subst h; simp; omega
    | succ i => simp at h; have := ih i h; simp; omega

/-- Invariant of the controller's accounts. -/
structure CtlInv (c : Ctl) : Prop where
  noPool : c.pool = none → c.lsts = [] ∧ c.auths = [] ∧ c.rebal = none
  total : ∀ p, c.pool = some p → p.totalSolValue = sumSol c.lsts
  total_u64 : ∀ p, c.pool = some p → p.totalSolValue < U64
  mints : (c.lsts.map LstState.mint).Nodup
  auths : c.auths.Nodup
  fees : ∀ p, c.pool = some p → p.tradingProtocolFeeBps ≤ 10000 ∧ p.lpProtocolFeeBps ≤ 10000
  version : ∀ p, c.pool = some p → p.version = 1
  flags : ∀ p, c.pool = some p → p.isDisabled ≤ 1 ∧ p.isRebalancing ≤ 1 ∧ (p.isDisabled = 0 ∨ p.isRebalancing = 0)
  rebal : ∀ p, c.pool = some p → (p.isRebalancing ≠ 0 ↔ c.rebal ≠ none)
  lst : ∀ s ∈ c.lsts, s.isInputDisabled ≤ 1 ∧ s.poolReservesBump < 256 ∧ s.protocolFeeAccumulatorBump < 256

theorem config_mint (ls : List LstState) : ls.map LstState.mint = (ls.map LstState.config).map LstState.mint := by
  simp [Function.comp_def, LstState.config]

theorem config_forall {P : LstState → Prop} (hP : ∀ s, P s ↔ P s.config) {ls ls' : List LstState}
    (h : ls'.map LstState.config = ls.map LstState.config) (hl : ∀ s ∈ ls, P s) : ∀ s ∈ ls', P s := by
  intro s hs
  have : s.config ∈ ls'.map LstState.config := List.mem_map_of_mem hs
  rw [h] at this
  obtain ⟨t, ht, he⟩ := List.mem_map.1 this
  rw [hP, ← he, ← hP]; exact hl t ht

theorem CtlInv.sync {c c' : Ctl} {i v : Nat} (h : CtlInv c) (hs : c.sync i v = .ok c') : CtlInv c' := by
  have ov := sync_onlyValues hs
  obtain ⟨p, s, hf⟩ := ctlSync_ok.1 hs
  have e := hf.eq
  have ht := h.total p hf.pool
  have hsum := sum_set LstState.solValue c.lsts i s { s with solValue := v } hf.lst
  have hp' : c'.pool = some { p with totalSolValue := p.totalSolValue - s.solValue + v } := by rw [e]
  refine ⟨?_, ?_, ?_, ?_, ?_, ?_, ?_, ?_, ?_, ?_⟩
  · intro hn; rw [hp'] at hn; cases hn
  · intro q hq; rw [hp'] at hq; injection hq with hq; subst hq
    have h1 := hf.le
    simp only [sumSol, e] at ht hsum ⊢
    omega
  · intro q hq; rw [hp'] at hq; injection hq with hq; subst hq; exact hf.fits
  · rw [config_mint, ov.lsts, ← config_mint]; exact h.mints
  · rw [ov.auths]; exact h.auths
  · intro q hq; rw [hp'] at hq; injection hq with hq; subst hq; exact h.fees p hf.pool
  · intro q hq; rw [hp'] at hq; injection hq with hq; subst hq; exact h.version p hf.pool
  · intro q hq; rw [hp'] at hq; injection hq with hq; subst hq; exact h.flags p hf.pool
  · intro q hq; rw [hp'] at hq; injection hq with hq; subst hq; rw [ov.rebal]; exact h.rebal p hf.pool
  · exact config_forall (fun s => by simp [LstState.config]) ov.lsts h.lst

theorem CtlInv.syncs {c c' : Ctl} (h : CtlInv c) (hs : Syncs c c') : CtlInv c' := by
  induction hs with
  | refl => exact h
  | step _ _ hs ih => exact ih.sync hs

/-- Changing an entry's flag or calculator keeps the invariant. -/
theorem CtlInv.setLst {c : Ctl} (h : CtlInv c) {i : Nat} {s s' : LstState} (hs : c.lsts[i]? = some s)
    (hm : s'.mint = s.mint) (hv : s'.solValue = s.solValue) (hi : s'.isInputDisabled ≤ 1)
    (hb : s'.poolReservesBump = s.poolReservesBump)
    (hb' : s'.protocolFeeAccumulatorBump = s.protocolFeeAccumulatorBump) :
    CtlInv { c with lsts := c.lsts.set i s' } where
  noPool hn := by
    have := (h.noPool hn).1
    rw [this] at hs; simp at hs
  total p hp := by
    have := sum_set LstState.solValue c.lsts i s s' hs
    have ht := h.total p hp
    simp only [sumSol] at *
    omega
  total_u64 := h.total_u64
  mints := by simpa [map_set_eq LstState.mint c.lsts i s s' hs hm] using h.mints
  auths := h.auths
  fees := h.fees
  version := h.version
  flags := h.flags
  rebal := h.rebal
  lst := by
    intro t ht
    rcases List.mem_or_eq_of_mem_set ht with ht | rfl
    · exact h.lst t ht
    · have := h.lst s (List.mem_of_getElem? hs)
      rw [hb, hb']; exact ⟨hi, this.2⟩

/-- Replacing the pool by one with the same total, version and flags, and admissible fees. -/
theorem CtlInv.setPool {c : Ctl} (h : CtlInv c) {p q : PoolState} (hp : c.pool = some p)
    (ht : q.totalSolValue = p.totalSolValue) (hv : q.version = p.version)
    (hf : q.tradingProtocolFeeBps ≤ 10000 ∧ q.lpProtocolFeeBps ≤ 10000)
    (hd : q.isDisabled ≤ 1 ∧ (q.isDisabled = 0 ∨ q.isRebalancing = 0))
    (hr : q.isRebalancing = p.isRebalancing) : CtlInv { c with pool := some q } where
  noPool hn := by cases hn
  total r hr := by injection hr with hr; subst hr; rw [ht]; exact h.total p hp
  total_u64 r hr := by injection hr with hr; subst hr; rw [ht]; exact h.total_u64 p hp
  mints := h.mints
  auths := h.auths
  fees r hr := by injection hr with hr; subst hr; exact hf
  version r hr := by injection hr with hr; subst hr; rw [hv]; exact h.version p hp
  flags r hr' := by injection hr' with hr'; subst hr'; exact ⟨hd.1, by rw [hr]; exact (h.flags p hp).2.1, hd.2⟩
  rebal r hr' := by injection hr' with hr'; subst hr'; rw [hr]; exact h.rebal p hp
  lst := h.lst

theorem nodup_eraseIdx {α : Type} {l : List α} (h : l.Nodup) (i : Nat) : (l.eraseIdx i).Nodup :=
  h.sublist (List.eraseIdx_sublist l i)

/-- The invariant is kept by every instruction. -/
theorem CtlInv.step {cfg : Cfg} {tx : TxInfo} {w : World} {accs : List Acc} {c' : Ctl} {ix : Ix}
    (h : CtlInv w.ctl) (hs : CtlStep cfg tx w accs c' ix) : CtlInv c' := by
  cases ix with
  | syncSolValue i => obtain ⟨p, _, hs⟩ := hs; exact h.syncs hs
  | swapExactIn args => obtain ⟨p, s, _, _, _, hs⟩ := hs; exact h.syncs hs
  | swapExactOut args => obtain ⟨p, s, _, _, _, hs⟩ := hs; exact h.syncs hs
  | addLiquidity args => obtain ⟨p, s, _, _, _, hs⟩ := hs; exact h.syncs hs
  | removeLiquidity args => obtain ⟨p, _, hs⟩ := hs; exact h.syncs hs
  | disableLstInput i =>
    obtain ⟨p, s, _, _, hs, rfl⟩ := hs
    exact h.setLst hs rfl rfl (Nat.le_refl 1) rfl rfl
  | enableLstInput i =>
    obtain ⟨p, s, _, _, hs, rfl⟩ := hs
    exact h.setLst hs rfl rfl (Nat.zero_le 1) rfl rfl
  | addLst =>
    obtain ⟨p, s, ⟨hp, _⟩, _, hfr, h0, hi, hb, hb', _, rfl⟩ := hs
    refine ⟨fun hn => ?_, ?_, h.total_u64, ?_, h.auths, h.fees, h.version, h.flags, h.rebal, ?_⟩
    · rw [hp] at hn; cases hn
    · intro q hq; have := h.total q hq; simp [sumSol, h0] at *; exact this
    · simp only [List.map_append, List.map_cons, List.map_nil]
      rw [List.nodup_append]
      refine ⟨h.mints, by simp, ?_⟩
      intro m hm m' hm'
      obtain ⟨t, ht, rfl⟩ := List.mem_map.1 hm
      simp at hm'; subst hm'; exact hfr t ht
    · intro t ht
      rcases List.mem_append.1 ht with ht | ht
      · exact h.lst t ht
      · simp at ht; subst ht; exact ⟨by omega, hb, hb'⟩
  | removeLst i =>
    obtain ⟨p, s, ⟨hp, _⟩, _, hs, h0, rfl⟩ := hs
    refine ⟨fun hn => ?_, ?_, h.total_u64, ?_, h.auths, h.fees, h.version, h.flags, h.rebal, ?_⟩
    · rw [hp] at hn; cases hn
    · intro q hq; have := h.total q hq; have := sum_eraseIdx LstState.solValue _ i s hs; simp only [sumSol] at *; omega
    · exact h.mints.sublist ((List.eraseIdx_sublist _ i).map _)
    · intro t ht; exact h.lst t (List.mem_of_mem_eraseIdx ht)
  | setSolValueCalculator i =>
    obtain ⟨p, s, prog, _, _, hs, _, hsy⟩ := hs
    exact (h.setLst hs (s' := { s with solValueCalculator := prog }) rfl rfl
      (h.lst s (List.mem_of_getElem? hs)).1 rfl rfl).syncs hsy
  | setAdmin =>
    obtain ⟨p, k, hp, _, rfl⟩ := hs
    have hfl := h.flags p hp
    exact h.setPool hp rfl rfl (h.fees p hp) ⟨hfl.1, hfl.2.2⟩ rfl
  | setProtocolFee args =>
    obtain ⟨p, ⟨hp, _, _⟩, _, f1, f2, rfl⟩ := hs
    have hfl := h.flags p hp
    refine h.setPool hp rfl rfl ?_ ⟨hfl.1, hfl.2.2⟩ rfl
    have hfe := h.fees p hp
    constructor
    · cases ht : args.newTradingProtocolFeeBps with
      | none => exact hfe.1
      | some f => exact f2 f (by rw [ht]; rfl)
    · cases ht : args.newLpProtocolFeeBps with
      | none => exact hfe.2
      | some f => exact f1 f (by rw [ht]; rfl)
  | setProtocolFeeBeneficiary =>
    obtain ⟨p, k, ⟨hp, _, _⟩, _, rfl⟩ := hs
    have hfl := h.flags p hp
    exact h.setPool hp rfl rfl (h.fees p hp) ⟨hfl.1, hfl.2.2⟩ rfl
  | setPricingProgram =>
    obtain ⟨p, k, ⟨hp, _, _⟩, _, _, rfl⟩ := hs
    have hfl := h.flags p hp
    exact h.setPool hp rfl rfl (h.fees p hp) ⟨hfl.1, hfl.2.2⟩ rfl
  | withdrawProtocolFees n => obtain ⟨p, _, _, rfl⟩ := hs; exact h
  | addDisablePoolAuthority =>
    obtain ⟨p, k, hp, _, hni, rfl⟩ := hs
    refine ⟨fun hn => ?_, h.total, h.total_u64, h.mints, ?_, h.fees, h.version, h.flags, h.rebal, h.lst⟩
    · rw [hp] at hn; cases hn
    · show (w.ctl.auths ++ [k]).Nodup
      rw [List.nodup_append]
      refine ⟨h.auths, by simp, ?_⟩
      intro x hx y hy; simp at hy; subst hy; rintro rfl; exact hni hx
  | removeDisablePoolAuthority i =>
    obtain ⟨p, k, hp, _, _, rfl⟩ := hs
    refine ⟨fun hn => ?_, h.total, h.total_u64, h.mints, nodup_eraseIdx h.auths i, h.fees, h.version, h.flags, h.rebal,
      h.lst⟩
    rw [hp] at hn; cases hn
  | disablePool =>
    obtain ⟨p, ⟨hp, hr, _⟩, _, rfl⟩ := hs
    exact h.setPool hp rfl rfl (h.fees p hp) ⟨Nat.le_refl 1, .inr hr⟩ rfl
  | enablePool =>
    obtain ⟨p, hp, _, _, rfl⟩ := hs
    exact h.setPool hp rfl rfl (h.fees p hp) ⟨Nat.zero_le 1, .inl rfl⟩ rfl
  | startRebalance args =>
    obtain ⟨p, s, c2, c3, p2, p3, dm, ⟨hp, hr, hd⟩, _, _, _, _, _, s2, hp2, s3, hp3, hn, rfl⟩ := hs
    have h3 := (h.syncs s2).syncs s3
    have ov := (s2.trans s3).onlyValues
    obtain ⟨t, ht⟩ := ov.pool p hp
    rw [hp3] at ht; injection ht with ht
    refine ⟨(fun hn => by cases hn), ?_, ?_, h3.mints, h3.auths, ?_, ?_, ?_, ?_, h3.lst⟩
    · intro q hq; injection hq with hq; subst hq; exact h3.total p3 hp3
    · intro q hq; injection hq with hq; subst hq; exact h3.total_u64 p3 hp3
    · intro q hq; injection hq with hq; subst hq; exact h3.fees p3 hp3
    · intro q hq; injection hq with hq; subst hq; exact h3.version p3 hp3
    · intro q hq; injection hq with hq; subst hq; subst ht; exact ⟨by simp [hd], by simp, .inl hd⟩
    · intro q hq; injection hq with hq; subst hq; simp
  | endRebalance =>
    obtain ⟨p, rr, c1, p1, hp, hr, hrr, _, hsy, hp1, _, rfl⟩ := hs
    -- syncs do not look at the rebalance record: move it out of the way first
    have key : ∀ {c c' : Ctl}, Syncs c c' → Syncs { c with rebal := none } { c' with rebal := none } := by
      intro c c' hsy
      induction hsy with
      | refl => exact .refl _
      | @step c1 c2 i v _ hv hs ih =>
        obtain ⟨p, s, hf⟩ := ctlSync_ok.1 hs
        refine .step (i := i) ih hv (ctlSync_ok.2 ⟨p, s, hf.pool, hf.lst, hf.le, hf.fits, ?_⟩)
        rw [hf.eq]
    have hfl := h.flags p hp
    have h0 : CtlInv { w.ctl with pool := some { p with isRebalancing := 0 }, rebal := none } := by
      refine ⟨(fun hn => by cases hn), ?_, ?_, h.mints, h.auths, ?_, ?_, ?_, ?_, h.lst⟩
      · intro q hq; injection hq with hq; subst hq; exact h.total p hp
      · intro q hq; injection hq with hq; subst hq; exact h.total_u64 p hp
      · intro q hq; injection hq with hq; subst hq; exact h.fees p hp
      · intro q hq; injection hq with hq; subst hq; exact h.version p hp
      · intro q hq; injection hq with hq; subst hq; exact ⟨hfl.1, by simp, .inr rfl⟩
      · intro q hq; injection hq with hq; subst hq; simp
    exact h0.syncs (key hsy)
  | setRebalanceAuthority =>
    obtain ⟨p, k, ⟨hp, _, _⟩, _, rfl⟩ := hs
    have hfl := h.flags p hp
    exact h.setPool hp rfl rfl (h.fees p hp) ⟨hfl.1, hfl.2.2⟩ rfl
  | «initialize» =>
    obtain ⟨k, hn, _, rfl⟩ := hs
    obtain ⟨e1, e2, e3⟩ := h.noPool hn
    refine ⟨(fun hn => by cases hn), ?_, ?_, h.mints, h.auths, ?_, ?_, ?_, ?_, h.lst⟩
    · intro q hq; injection hq with hq; subst hq; simp [e1, sumSol]
    · intro q hq; injection hq with hq; subst hq; simp
    · intro q hq; injection hq with hq; subst hq; simp
    · intro q hq; injection hq with hq; subst hq; rfl
    · intro q hq; injection hq with hq; subst hq; simp
    · intro q hq; injection hq with hq; subst hq; simp [e3]

end S
