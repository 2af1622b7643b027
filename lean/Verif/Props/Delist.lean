import Verif.Props.AdminCli
import Verif.Props.RebalanceMoves
import Verif.Props.CliRebalance
import Verif.Props.Order
import Verif.Props.Exit
/-
C87: an LST can always be delisted, in one transaction that nobody can get in the way of.
-/
set_option autoImplicit false
namespace S

/-! ### Specification -/

/-- The LST `mint` is listed, and nothing of it is left: it is recorded at no value and its reserves are empty. -/
def Emptied (cfg : Cfg) (w : World) (mint : Pubkey) : Prop :=
  ∃ s ∈ w.ctl.lsts, s.mint = mint ∧ s.solValue = 0 ∧ ReservesAre cfg w s 0

/-- The fees accumulated in the LST `mint`. -/
def FeesAre (cfg : Cfg) (w : World) (mint : Pubkey) (n : Nat) : Prop :=
  ∃ m a, w.led.mints mint = some m ∧ w.led.tok (cfg.findAta cfg.protocolFee m.program mint).1 = some a ∧ a.amount = n

/-- The controller's instruction `ix` as a step of a transaction in which it is passed accounts with at least the listed privileges. -/
structure Sends {cfg : Cfg} (ix : TopIx) (c : Call cfg) : Prop where
  seen : SeenAs ix.accs c.accs
  data : c.data = ix.data
  signers : signersOk cfg c.accs

/-! ### Proofs -/

section
variable {cfg : Cfg} {L : RatioLib} {w w' : World}

theorem searchEnd_more {m : Pubkey} {ixs more : List TopIx} {n : Nat} {u : Unit} (h : searchEndRebalance cfg m (ixs.drop n) = .ok u) :
    searchEndRebalance cfg m ((ixs ++ more).drop n) = .ok u := by
  obtain ⟨x, hx, he⟩ := searchEnd_iff.1 h
  exact searchEnd_iff.2 ⟨x, by rw [List.drop_append]; exact List.mem_append_left _ hx, he⟩

theorem verifyStart_more {ixs more : List TopIx} {n : Nat} {a : StartRebAccs} {suf : List Acc} {args : StartRebalanceArgs} {c : SrcDstCpis}
    (h : verifyStartRebalance cfg ⟨ixs, n⟩ w a suf args = .ok c) : verifyStartRebalance cfg ⟨ixs ++ more, n⟩ w a suf args = .ok c := by
  simp only [verifyStartRebalance, verifySucceedingEnd, bind_ok, require_ok, exists_const] at h ⊢
  obtain ⟨h1, h2, src, e1, tp, e2, res, e3, dst, e4, tp', e5, res', e6, p, e7, u1, e8, u2, e9, u3, e10, b1, e11, e12, b2, e13, e14, u4, e15, u5, e16,
    c, e17, u6, e18, e19⟩ := h
  exact ⟨h1, h2, src, e1, tp, e2, res, e3, dst, e4, tp', e5, res', e6, p, e7, u1, e8, u2, e9, u3, e10, b1, e11, e12, b2, e13, e14, u4, e15, u5, e16,
    c, e17, u6, searchEnd_more e18, e19⟩

theorem processIx_more {env : Env cfg} {ixs more : List TopIx} {n : Nat} {accs : List Acc} {ix : Ix} (h : processIx cfg L env ⟨ixs, n⟩ w accs ix = .ok w') :
    processIx cfg L env ⟨ixs ++ more, n⟩ w accs ix = .ok w' := by
  cases ix with
  | startRebalance args =>
    simp only [processIx, processStartRebalance] at h ⊢
    rw [bind_ok] at h ⊢
    obtain ⟨⟨a, suf⟩, hl, h⟩ := h
    refine ⟨(a, suf), hl, ?_⟩
    dsimp only at h ⊢
    rw [bind_ok] at h ⊢
    obtain ⟨c, hc, h⟩ := h
    exact ⟨c, verifyStart_more hc, h⟩
  | _ => simpa only [processIx] using h

/-- Instructions behind the ones executed so far do not make them fail. -/
theorem Call.run_more {c : Call cfg} {ixs more : List TopIx} {n : Nat} (h : c.run L ⟨ixs, n⟩ w = .ok w') : c.run L ⟨ixs ++ more, n⟩ w = .ok w' := by
  simp only [Call.run, processInstruction, bind_ok, require_ok, exists_const] at h ⊢
  obtain ⟨h1, h2, ix, hd, hp⟩ := h
  exact ⟨h1, h2, ix, hd, processIx_more hp⟩

theorem runActions_more {ixs more : List TopIx} {n : Nat} : ∀ {as : List (Action cfg)} {w w' : World}, runActions L ⟨ixs, n⟩ w as = .ok w' →
    runActions L ⟨ixs ++ more, n⟩ w as = .ok w'
  | [], _, _, h => h
  | .ext f ok :: as, w, w', h => by
    simp only [runActions, bind_ok] at h ⊢
    obtain ⟨w1, h1, h2⟩ := h
    exact ⟨w1, h1, runActions_more h2⟩
  | .call c :: as, w, w', h => by
    simp only [runActions, bind_ok] at h ⊢
    obtain ⟨w1, h1, h2⟩ := h
    exact ⟨w1, Call.run_more h1, runActions_more h2⟩

theorem runSteps_more {ixs more : List TopIx} : ∀ {ss : List (Step cfg)} {n : Nat} {w w' : World}, runSteps L ixs n w ss = .ok w' →
    runSteps L (ixs ++ more) n w ss = .ok w'
  | [], _, _, _, h => h
  | .controller c :: ss, n, w, w', h => by
    simp only [runSteps, bind_ok] at h ⊢
    obtain ⟨w1, h1, h2⟩ := h
    exact ⟨w1, Call.run_more h1, runSteps_more h2⟩
  | .foreign _ _ as :: ss, n, w, w', h => by
    simp only [runSteps, bind_ok] at h ⊢
    obtain ⟨w1, h1, h2⟩ := h
    exact ⟨w1, runActions_more h1, runSteps_more h2⟩

/-- A step put behind a transaction that goes through. -/
theorem Tx.run_append {t : Tx cfg} {c : Call cfg} {w1 : World} (h : Tx.run L w t = .ok w1) (hs : signersOk cfg c.accs)
    (hc : ∀ tx, processInstruction cfg L c.env tx w1 cfg.programId c.accs c.data = .ok w') : Tx.run L w (t ++ [.controller c]) = .ok w' := by
  simp only [Tx.run, List.map_append, List.map_cons, List.map_nil] at h ⊢
  rw [runSteps_append _ _ _ _ _ (runSteps_more h)]
  simp only [runSteps, Step.run, Call.run, bind_ok, require_ok, exists_const]
  exact ⟨w', ⟨hs, hc _⟩, rfl⟩

theorem Results.program {ix : TopIx} {post : World → Prop} (h : Results cfg L w ix post) {c : Call cfg} (hs : Sends ix c) (hp : post w') :
    ∀ tx, processInstruction cfg L c.env tx w cfg.programId c.accs c.data = .ok w' := by
  intro tx
  have := (h c.env tx c.accs w' hs.seen).2 hp
  have e : ix.program = cfg.programId := by
    simp only [processInstruction, bind_ok, require_ok, exists_const] at this
    exact this.1
  rw [e, ← hs.data] at this
  exact this

/-- C87, the last two steps: whatever a transaction does that leaves an LST without value and reserves, it can be followed, in the same transaction, by the
withdrawal of all the fees accumulated in the LST, signed for by the beneficiary, and the removal of the LST, signed for by the admin: the transaction goes
through as a whole and the LST is gone, the rest of the list and of the pool as before. -/
theorem C87_delist (hreach : Reachable cfg L w) {t : Tx cfg} {w1 : World} (ht : Tx.run L w t = .ok w1) {p : PoolState}
    (hp : w1.ctl.pool = some p) (ha : p.Active) (hlen : w1.ctl.lsts.length ≤ 2 ^ 32) {mint : Pubkey} (he : Emptied cfg w1 mint) {k : Pubkey} {a : TokenAcc}
    (hk : Wallet cfg w1.led k mint a) {fees : Nat} (hf : FeesAre cfg w1 mint fees) (hroom : a.amount + fees < U64) (refund : Pubkey) :
    ∃ withdraw remove : TopIx, Signable withdraw [p.protocolFeeBeneficiary] ∧ Signable remove [p.admin] ∧
      ∀ c c' : Call cfg, Sends withdraw c → Sends remove c' → ∃ w', Tx.run L w (t ++ [.controller c, .controller c']) = .ok w' ∧
        w'.ctl = { w1.ctl with lsts := w1.ctl.lsts.filter fun s => s.mint ≠ mint } ∧ bal w'.led k = bal w1.led k + fees := by
  obtain ⟨s, hs, rfl, hv, m₁, k₁, ra₁, hm₁, hk₁, hra₁, hz⟩ := he
  obtain ⟨m₂, fa₁, hm₂, hfa₁, hfees⟩ := hf
  have hr1 := hreach.step ht
  obtain ⟨m, ra, fa, c1, c2, c3, c4, c5, c6, c7, c8, c9, c10, c11, c12⟩ := C61_canonical hr1 hs
  obtain rfl : m = m₁ := Option.some.inj (c1.symm.trans hm₁)
  obtain rfl : m = m₂ := Option.some.inj (c1.symm.trans hm₂)
  obtain rfl := Option.some.inj (c7.symm.trans hk₁)
  obtain rfl : ra = ra₁ := Option.some.inj (c3.symm.trans hra₁)
  obtain rfl : fa = fa₁ := Option.some.inj (c8.symm.trans hfa₁)
  have hka : k ≠ (cfg.findAta cfg.protocolFee m.program s.mint).1 := by
    rintro rfl
    have h := hk.tok
    rw [c8] at h; cases h
    exact hk.notFees c9
  have hkr : k ≠ (cfg.findAta cfg.poolState m.program s.mint).1 := by
    rintro rfl
    have h := hk.tok
    rw [c3] at h; cases h
    exact hk.notPool c4
  have har : (cfg.findAta cfg.protocolFee m.program s.mint).1 ≠ (cfg.findAta cfg.poolState m.program s.mint).1 := by
    intro h
    rw [h, c3] at c8; cases c8
    exact cfg.pool_ne_fee (c4.symm.trans c9)
  rw [← hfees] at hroom
  obtain ⟨ixs, hw⟩ := (C60_withdraw_runs (cfg := cfg) (w := w1) (signer := p.protocolFeeBeneficiary) (payer := 0) (mint := s.mint) (tp := m.program)
    (target := some k) (amount := none)).2 ⟨⟨p, hp, rfl⟩, by rw [c8]; simp, .inl (by simp [hk.tok])⟩
  obtain ⟨iw, hsw, hr, -⟩ := C60_withdraw (L := L) hr1 hp hs c1 c8 (by simp) hw
  obtain ⟨-, hr⟩ := hr a hk.tok
  simp only [Option.getD_some, Option.getD_none] at hr
  obtain ⟨w2, hw2⟩ : ∃ w2 : World, w2 = ⟨w1.ctl, (w1.led.setTok (cfg.findAta cfg.protocolFee m.program s.mint).1 (some { fa with amount := fa.amount - fa.amount })).setTok k
    (some { a with amount := a.amount + fa.amount })⟩ := ⟨_, rfl⟩
  have hpost : p.Active ∧ a.mint = s.mint ∧ a.program = m.program ∧ fa.amount ≤ fa.amount ∧
      (k = (cfg.findAta cfg.protocolFee m.program s.mint).1 ∧ w2 = w1 ∨ k ≠ (cfg.findAta cfg.protocolFee m.program s.mint).1 ∧ a.amount + fa.amount < U64 ∧
        w2 = ⟨w1.ctl, (w1.led.setTok (cfg.findAta cfg.protocolFee m.program s.mint).1 (some { fa with amount := fa.amount - fa.amount })).setTok k
          (some { a with amount := a.amount + fa.amount })⟩) :=
    ⟨ha, hk.mint, hk.program m c1, Nat.le_refl _, .inr ⟨hka, hroom, hw2⟩⟩
  obtain ⟨ir, hir⟩ := (C60_removeLst (ix := iw) (refund := refund) (mint := s.mint) hr1 hp hlen).1.2 ⟨s, hs, rfl⟩
  obtain ⟨_, _, _, _, -, -, -, -, -, hsr, -⟩ := (C60_removeLst (ix := ir) (refund := refund) (mint := s.mint) hr1 hp hlen).2 hir
  refine ⟨iw, ir, hsw, (hsr _).2 (List.mem_singleton.2 rfl), fun c c' hc hc' => ?_⟩
  have h2 := Tx.run_append ht hc.signers (hr.program hc hpost)
  have hr2 := hreach.step h2
  have e2c : w2.ctl = w1.ctl := by rw [hw2]
  have e2m : w2.led.mints = w1.led.mints := by rw [hw2]; rfl
  have hir2 : AdminCli.removeLst cfg w2 refund s.mint = .ok ir := by
    rw [← hir]; simp only [AdminCli.removeLst, fetchPool, e2c, e2m]
  obtain ⟨s', m', ra', fa', g1, g2, g3, g4, g5, -, g7⟩ := (C60_removeLst (ix := ir) (refund := refund) (mint := s.mint) hr2 (by rw [e2c]; exact hp)
    (by rw [e2c]; exact hlen)).2 hir2
  rw [e2c] at g1
  rw [e2m, c1] at g3; cases g3
  obtain rfl : s' = s := List.inj_on_of_nodup_map hr1.inv.ctl.mints g1 hs g2
  have t1 : w2.led.tok (cfg.findAta cfg.poolState m.program s'.mint).1 = some ra := by
    rw [hw2]; simp only [Ledger.setTok, upd_ne _ _ hkr.symm, upd_ne _ _ har.symm, c3]
  have t2 : w2.led.tok (cfg.findAta cfg.protocolFee m.program s'.mint).1 = some { fa with amount := fa.amount - fa.amount } := by
    rw [hw2]; simp only [Ledger.setTok, upd_ne _ _ hka.symm, upd_same]
  rw [t1] at g4; cases g4
  rw [t2] at g5; cases g5
  have h3 := Tx.run_append h2 hc'.signers (g7.program hc' ⟨ha, hv, hz, Nat.sub_self _, rfl⟩)
  rw [List.append_assoc] at h3
  refine ⟨_, h3, ?_, ?_⟩
  · rw [e2c]
  · have e : ((w2.led.setTok (cfg.findAta cfg.protocolFee m.program s'.mint).1 none).setTok (cfg.findAta cfg.poolState m.program s'.mint).1 none).tok k =
        some { a with amount := a.amount + fa.amount } := by
      simp only [Ledger.setTok, upd_ne _ _ hkr, upd_ne _ _ hka, hw2, upd_same]
    rw [bal_some e, bal_some hk.tok, hfees]

/-- C87, the first steps: take a rebalance of an LST into another one, with whatever other programs do before and in between. If it goes through and leaves the
reserves of the LST empty, then the LST is recorded at no value, and the list is otherwise the same. (The calculator values nothing at nothing, as all of
/repo's do.) -/
theorem C87_emptied (hreach : Reachable cfg L w) {pre mid : List (Step cfg)} (hpre : ∀ x ∈ pre, x.Plain) (hmid : ∀ x ∈ mid, x.Plain) {c c' : Call cfg}
    {args : StartRebalanceArgs} (hd : decodeIx c.data = .ok (.startRebalance args)) (hd' : decodeIx c'.data = .ok .endRebalance)
    (hne : args.srcLstIndex ≠ args.dstLstIndex) (hq : c.env.Quiet) (hq' : c'.env.Quiet)
    (h : Tx.run L w (pre ++ .controller c :: (mid ++ [.controller c'])) = .ok w') {s : LstState} (hs : w.ctl.lsts[args.srcLstIndex]? = some s)
    (hzero : ∀ l r, CalcAnswer c.env 2 l s.solValueCalculator s.mint (.lstToSol 0) r → r.min = 0) (hall : ReservesAre cfg w' s 0) :
    Emptied cfg w' s.mint ∧ w'.ctl.lsts.map LstState.mint = w.ctl.lsts.map LstState.mint := by
  rw [Tx.run] at h
  generalize List.map Step.top (pre ++ .controller c :: (mid ++ [.controller c'])) = ixs at h
  obtain ⟨w1, q1, k1, o1⟩ := runSteps_plain (L := L) (ixs := ixs) hpre 0 w
  rw [runSteps_append _ _ _ _ _ q1] at h
  simp only [runSteps, Step.run] at h
  obtain ⟨x, hx, h⟩ := bind_ok.1 h
  obtain ⟨w2, q2, k2, o2⟩ := runSteps_plain (L := L) (ixs := ixs) hmid (0 + pre.length + 1) x
  rw [runSteps_append _ _ _ _ _ q2] at h
  simp only [runSteps, Step.run] at h
  obtain ⟨y, hy, h⟩ := bind_ok.1 h
  cases h
  simp only [Call.run, processInstruction, bind_ok, require_ok, exists_const, hd, hd', Except.ok.injEq, exists_eq_left'] at hx hy
  obtain ⟨-, -, hx⟩ := hx
  obtain ⟨-, -, hy⟩ := hy
  have hi1 : Inv cfg w1 := hreach.inv.ext k1 o1
  obtain ⟨p, src, dst, auth, srcRes, dstRes, dest, r0, r1, r2, T, t, hpar, -, -, -, hm, -, -, -, ha2, -, -, hctl⟩ := C69_startRebalance hq hx
  obtain ⟨p', rr, dst', _, _, r, t', hp', hrr, -, hdst', -, -, -, -, -, hled, -, -, -, hctl'⟩ := C69_endRebalance hq' hy
  have hi2 := hi1.ix hx
  have hsrc := hpar.srcEntry
  rw [k1, hs] at hsrc; cases hsrc
  have hli := (List.getElem?_eq_some_iff.1 hpar.srcEntry).1
  have hxs : x.ctl.lsts[args.srcLstIndex]? = some { s with solValue := r2.min } := by
    rw [hctl]; simp only; rw [List.getElem?_set_self (by simpa using hli)]
  obtain ⟨m, res, acc, ra, fa, la⟩ := hi2.accs _ (List.mem_of_getElem? hxs)
  obtain ⟨m', k', a', hm', hk', ha', hz⟩ := hall
  rw [hled] at hm' ha'
  obtain ⟨m'', hm'', hprog, -⟩ := o2.mint _ _ la.mint
  simp only at hm''
  rw [hm'] at hm''; cases hm''
  have hk := la.res_key
  simp only at hk
  rw [hprog, hk] at hk'; cases hk'
  obtain ⟨n, hn, htok⟩ := o2.tok _ _ la.res (.inl la.ra_owner)
  rw [ha'] at htok; cases htok
  simp only at hz
  have hra : ra.amount = 0 := by omega
  have hkey : srcRes.key = res := by
    obtain ⟨m1, e1, e2⟩ := hpar.srcReserves
    have := la.mint
    simp only at this
    rw [hm, e1] at this; cases this
    rw [e2] at hk; injection hk
  rw [hkey, bal_some la.res, hra] at ha2
  have hr2 := hzero _ _ ha2
  have hrr' : rr.dstLstIndex = args.dstLstIndex := by
    rw [k2, hctl] at hrr; cases hrr; rfl
  have hfin : w'.ctl.lsts[args.srcLstIndex]? = some { s with solValue := r2.min } := by
    rw [hctl']; simp only
    rw [hrr', List.getElem?_set_ne (Ne.symm hne), k2, hxs]
  refine ⟨⟨_, List.mem_of_getElem? hfin, rfl, hr2, m', res, _, by rw [hled]; exact hm', by simp only; rw [hprog]; exact hk, by rw [hled]; exact ha', hz⟩, ?_⟩
  have hdst := hpar.dstEntry
  have e1 : x.ctl.lsts.map LstState.mint = w.ctl.lsts.map LstState.mint := by
    rw [hctl, ← k1]; simp only
    have hs1 : (w1.ctl.lsts.set args.dstLstIndex { dst with solValue := r1.min })[args.srcLstIndex]? = some s := by
      rw [List.getElem?_set_ne (Ne.symm hne)]; exact hpar.srcEntry
    rw [map_set_eq LstState.mint _ _ s { s with solValue := r2.min } hs1 rfl, map_set_eq LstState.mint _ _ dst { dst with solValue := r1.min } hdst rfl]
  rw [hctl']; simp only
  rw [map_set_eq LstState.mint _ _ dst' { dst' with solValue := r.min } hdst' rfl, k2, e1]

/-- C87: an LST can be delisted in one transaction. Take a rebalance that goes through and leaves the LST's reserves empty (C56 says when one does; the amount to
start with is all the reserves hold). Followed by the withdrawal of the fees accumulated in the LST and its removal, it still goes through, as one transaction, and
the LST is gone. Nobody can get in the way between the steps, and everything else of the list stays. -/
theorem C87_delisting (hreach : Reachable cfg L w) {pre mid : List (Step cfg)} (hpre : ∀ x ∈ pre, x.Plain) (hmid : ∀ x ∈ mid, x.Plain) {c c' : Call cfg}
    {args : StartRebalanceArgs} (hd : decodeIx c.data = .ok (.startRebalance args)) (hd' : decodeIx c'.data = .ok .endRebalance)
    (hne : args.srcLstIndex ≠ args.dstLstIndex) (hq : c.env.Quiet) (hq' : c'.env.Quiet)
    (h : Tx.run L w (pre ++ .controller c :: (mid ++ [.controller c'])) = .ok w') {s : LstState} (hs : w.ctl.lsts[args.srcLstIndex]? = some s)
    (hzero : ∀ l r, CalcAnswer c.env 2 l s.solValueCalculator s.mint (.lstToSol 0) r → r.min = 0) (hall : ReservesAre cfg w' s 0)
    {p : PoolState} (hp : w'.ctl.pool = some p) (ha : p.Active) (hlen : w'.ctl.lsts.length ≤ 2 ^ 32) {k : Pubkey} {a : TokenAcc}
    (hk : Wallet cfg w'.led k s.mint a) {fees : Nat} (hf : FeesAre cfg w' s.mint fees) (hroom : a.amount + fees < U64) (refund : Pubkey) :
    ∃ withdraw remove : TopIx, Signable withdraw [p.protocolFeeBeneficiary] ∧ Signable remove [p.admin] ∧
      ∀ x x' : Call cfg, Sends withdraw x → Sends remove x' →
        ∃ w₂, Tx.run L w (pre ++ .controller c :: (mid ++ [.controller c']) ++ [.controller x, .controller x']) = .ok w₂ ∧
          w₂.ctl.lsts.map LstState.mint = (w.ctl.lsts.map LstState.mint).filter (fun m => m ≠ s.mint) ∧ w₂.ctl.pool = some p ∧
          bal w₂.led k = bal w'.led k + fees := by
  obtain ⟨he, hm⟩ := C87_emptied hreach hpre hmid hd hd' hne hq hq' h hs hzero hall
  obtain ⟨iw, ir, h1, h2, h3⟩ := C87_delist hreach h hp ha hlen he hk hf hroom refund
  refine ⟨iw, ir, h1, h2, fun x x' hx hx' => ?_⟩
  obtain ⟨w₂, h4, h5, h6⟩ := h3 x x' hx hx'
  refine ⟨w₂, h4, ?_, by rw [h5]; exact hp, h6⟩
  rw [h5, ← hm]
  simp only [List.filter_map, Function.comp_def]

end

/-! ### Examples -/
namespace Ex

/-- All of LST B is rebalanced out, for as much value of A. -/
def tOut : Tx cfg :=
  [] ++ call startB (.startRebalance ⟨1, 1, 0, 16016, 0, 1000000⟩) ::
    ([.foreign ⟨77, [], []⟩ (by decide) [.ext (moveTokens 41 resA 24024) (moveTokens_ok _ _ _)]] ++ [call endA .endRebalance])

theorem out_lsts : (Tx.run .ex (st 7) tOut).toOption.map (fun w => w.ctl.lsts.map fun s => (s.mint, s.solValue)) = some [(21, 60055), (22, 0)] := by decide +kernel

theorem out_pool : (Tx.run .ex (st 7) tOut).toOption.map (fun w => w.ctl.pool.map fun p => (p.isRebalancing, p.isDisabled)) = some (some (0, 0)) := by decide +kernel

theorem out_led : (Tx.run .ex (st 7) tOut).toOption.map (fun w => (w.led.tok resB, w.led.tok feeB, w.led.tok 42)) =
    some (some ⟨8, 22, 1, 0⟩, some ⟨8, 22, 5, 4⟩, some ⟨8, 22, 40, 999996⟩) := by decide +kernel

theorem out_mints : (Tx.run .ex (st 7) tOut).toOption.map (fun w => w.led.mints 22) = some (some ⟨8, 1000000, 9, none, none⟩) := by decide +kernel

theorem out_entry : (st 7).ctl.lsts[1]? = some ⟨0, 255, 255, 24024, 22, 32⟩ := by decide +kernel

theorem out_zero (ms : List Acc) {r : Range} (h : calcF 32 ms (.lstToSol 0) = .ok r) : r.min = 0 := by
  have e : (calcF 32 [] (.lstToSol 0)).toOption.map Range.min = some 0 := by decide +kernel
  change calcF 32 [] (.lstToSol 0) = .ok r at h
  rw [h] at e
  injection e

-- the hypotheses of the theorem are met
example : ∃ w', Tx.run .ex (st 7) tOut = .ok w' ∧ ∃ p withdraw remove, w'.ctl.pool = some p ∧ Signable withdraw [p.protocolFeeBeneficiary] ∧ Signable remove [p.admin] ∧
    ∀ x x' : Call cfg, Sends withdraw x → Sends remove x' → ∃ w₂, Tx.run .ex (st 7) (tOut ++ [.controller x, .controller x']) = .ok w₂ ∧
      w₂.ctl.lsts.map LstState.mint = ((st 7).ctl.lsts.map LstState.mint).filter (fun m => m ≠ 22) ∧ bal w₂.led 42 = bal w'.led 42 + 4 := by
  have f1 := out_lsts
  have f2 := out_pool
  have f3 := out_led
  have f4 := out_mints
  cases h : Tx.run .ex (st 7) tOut with
  | error e => rw [h] at f1; cases f1
  | ok w' =>
    rw [h] at f1 f2 f3 f4
    simp only [Except.toOption, Option.map_some, Option.some.injEq, Prod.mk.injEq] at f1 f2 f3 f4
    obtain ⟨t1, t2, t3⟩ := f3
    cases hp : w'.ctl.pool with
    | none => rw [hp] at f2; cases f2
    | some p =>
      rw [hp] at f2
      simp only [Option.map_some, Option.some.injEq, Prod.mk.injEq] at f2
      have hlen : w'.ctl.lsts.length = 2 := by simpa using congrArg List.length f1
      obtain ⟨iw, ir, h1, h2, h3⟩ := C87_delisting (L := .ex) (st_reachable 7) (pre := []) (args := ⟨1, 1, 0, 16016, 0, 1000000⟩) (by simp)
        (mid := [.foreign ⟨77, [], []⟩ (by decide) [.ext (moveTokens 41 resA 24024) (moveTokens_ok _ _ _)]]) (by
          intro x hx; rw [List.mem_singleton] at hx; subst hx
          intro a ha; rw [List.mem_singleton] at ha; subst ha; exact ⟨_, _, rfl⟩)
        (by decide +kernel) (by decide +kernel) (by decide) Env.pure_quiet Env.pure_quiet h out_entry
        (by rintro l r ⟨_, ms, -, -, h⟩; obtain ⟨h, -⟩ := Env.pure_calc.1 h; exact out_zero ms h)
        ⟨_, resB, _, f4, by decide +kernel, t1, rfl⟩ hp f2 (by rw [hlen]; decide) (k := 42) (a := ⟨8, 22, 40, 999996⟩)
        ⟨t3, fun m hm => by rw [f4] at hm; cases hm; rfl, rfl, by decide, by decide⟩ (fees := 4) ⟨_, ⟨8, 22, 5, 4⟩, f4, t2, rfl⟩ (by decide) 52
      exact ⟨w', rfl, p, iw, ir, hp, h1, h2, fun x x' hx hx' => by
        obtain ⟨w₂, e1, e2, -, e3⟩ := h3 x x' hx hx'
        exact ⟨w₂, e1, e2, e3⟩⟩

-- the whole transaction, with the two instructions as the admin (who is the beneficiary, too) sends them
example : ((Tx.run .ex (st 7) (tOut ++ [call [sg 6, rw 42, rw feeB, rw 5, ro 8, rw 1, ro 22] (.withdrawProtocolFees 4),
      call [sg 6, rw 52, ro 22, rw resB, rw feeB, rw 5, ro 1, rw 2, ro 8] (.removeLst 1)])).toOption.map fun w =>
    (w.ctl.lsts.map (fun s => (s.mint, s.solValue)), bal w.led 42)) = some ([(21, 60055)], 1000000) := by decide +kernel

end Ex
end S
