import Verif.Cli
import Verif.Proofs.RebalLive
import Verif.Props.JupLive
import Verif.Props.Rebalance
/-
C56: a rebalance planned by the command-line tool is accepted.
-/
set_option autoImplicit false
namespace S

/-! ### Specification -/

/-- The cache shows the chain: the pool, the list, the reserves and token programs it holds are the ledger's; a calculator it can use is the one
the calculator program answers by (and the program changes no token account). Nothing is said about what the cache does not hold. -/
structure Mirrors (J : JupCfg) (L : RatioLib) (env : Env J.cfg) (S : SPool) (w : World) : Prop where
  pool : ∀ p, S.pool = .ok p → w.ctl.pool = some p
  lsts : ∀ l, S.lstList.lsts = .ok l → w.ctl.lsts = l
  reserves : ∀ (i : Nat) s d n m k, w.ctl.lsts[i]? = some s → S.data[i]? = some (some d) → d.reserves = some n →
    w.led.mints s.mint = some m → J.cfg.ata J.cfg.poolState m.program s.mint s.poolReservesBump = some k → bal w.led k = n
  aligned : S.Aligned J
  tokenPrograms : ∀ (i : Nat) s d m, w.ctl.lsts[i]? = some s → S.data[i]? = some (some d) → w.led.mints s.mint = some m →
    d.tokenProgram = m.program
  serves : ∀ (i : Nat) s d c, w.ctl.lsts[i]? = some s → S.data[i]? = some (some d) → d.solCalc.usable S.epoch = .ok c →
    c.Usable ∧ env.Serves L ⟨s.solValueCalculator, d.solCalc.ixAccounts J⟩ c

/-- An instruction of another program that does not call the controller. -/
def Step.Plain {cfg : Cfg} : Step cfg → Prop
  | .controller _ => False
  | .foreign _ _ as => ∀ a ∈ as, ∃ f ok, a = Action.ext f ok

/-- The transaction a rebalancing command sends: instructions of other programs (`pre`: creating the payer's token account), StartRebalance,
instructions of other programs (`mid`: the stake pool's, and the payer's transfer), EndRebalance. The controller sees the listed accounts
(`SeenAs`: with at least the listed privileges); `env`, `env'` are the other programs' behaviour during the two instructions. -/
structure RebalTx (cfg : Cfg) (plan : RebalPlan) where
  pre : List (Step cfg)
  env : Env cfg
  accs : List Acc
  mid : List (Step cfg)
  env' : Env cfg
  accs' : List Acc
  plainPre : ∀ x ∈ pre, x.Plain
  plainMid : ∀ x ∈ mid, x.Plain
  seen : SeenAs plan.start.accs accs
  seen' : SeenAs plan.finish.accs accs'
  signers : signersOk cfg accs
  signers' : signersOk cfg accs'

def RebalTx.startStep {cfg : Cfg} {plan : RebalPlan} (t : RebalTx cfg plan) : Step cfg := .controller ⟨t.env, t.accs, plan.start.data⟩
def RebalTx.endStep {cfg : Cfg} {plan : RebalPlan} (t : RebalTx cfg plan) : Step cfg := .controller ⟨t.env', t.accs', plan.finish.data⟩

def RebalTx.tx {cfg : Cfg} {plan : RebalPlan} (t : RebalTx cfg plan) : Tx cfg := t.pre ++ (t.startStep :: (t.mid ++ [t.endStep]))

/-- The top-level instructions of the transaction. -/
def RebalTx.tops {cfg : Cfg} {plan : RebalPlan} (t : RebalTx cfg plan) : List TopIx := List.map Step.top t.tx

/-- Before StartRebalance the state is `w`. -/
def RebalTx.Starts {cfg : Cfg} {plan : RebalPlan} (L : RatioLib) (t : RebalTx cfg plan) (w₀ w : World) : Prop :=
  runSteps L t.tops 0 w₀ t.pre = .ok w

/-- If StartRebalance succeeds, the state before EndRebalance is `w'`. -/
def RebalTx.Reaches {cfg : Cfg} {plan : RebalPlan} (L : RatioLib) (t : RebalTx cfg plan) (w w' : World) : Prop :=
  ∃ w1, t.startStep.run L ⟨t.tops, t.pre.length⟩ w = .ok w1 ∧ runSteps L t.tops (t.pre.length + 1) w1 t.mid = .ok w'

/-- The two LSTs are in the cache with their reserves, and bringing their recorded values up to date keeps the pool's total within 64 bits. -/
def SPool.SyncFits (L : RatioLib) (S : SPool) (src dst : Pubkey) : Prop :=
  ∃ p s d n s' d' n' v u, S.pool = .ok p ∧ S.findReady src = .ok (s, d) ∧ d.reserves = some n ∧ S.findReady dst = .ok (s', d') ∧
    d'.reserves = some n' ∧ d.solCalc.lstToSol L S.epoch n = .ok v ∧ d'.solCalc.lstToSol L S.epoch n' = .ok u ∧
    p.totalSolValue - s.solValue + v.min < U64 ∧ p.totalSolValue - s.solValue + v.min - s'.solValue + u.min < U64

/-- Compared with `w`, at least `amount` of the LST `mint` has arrived in its pool reserves; the LST's calculator, which may have moved on, values the
reserves, at no less than the cached calculator does; and the pool's total still fits. -/
def Delivered (J : JupCfg) (L : RatioLib) (env : Env J.cfg) (S : SPool) (mint : Pubkey) (amount : Nat) (w w' : World) : Prop :=
  ∀ (j : Nat) s d m k p', w.ctl.lsts[j]? = some s → s.mint = mint → S.data[j]? = some (some d) → w.led.mints mint = some m →
    J.cfg.ata J.cfg.poolState m.program mint s.poolReservesBump = some k → w'.ctl.pool = some p' →
    bal w.led k + amount ≤ bal w'.led k ∧
    ∃ c r r', c.Usable ∧ env.Serves L ⟨s.solValueCalculator, d.solCalc.ixAccounts J⟩ c ∧
      d.solCalc.lstToSol L S.epoch (bal w'.led k) = .ok r ∧ (c.calculator L).lstToSol (bal w'.led k) = .ok r' ∧ r.min ≤ r'.min ∧
      ∀ s', w'.ctl.lsts[j]? = some s' → p'.totalSolValue - s'.solValue + r'.min < U64

/-- What a rebalancing command needs of the chain and of the other programs. `w₀` is the state before the transaction, `w` the one before its
StartRebalance; `list` is the Sanctum LST list the cache was built from. `quoted` is the amount of the destination LST that the stake
pool's quote and the payer's subsidy add up to. -/
structure Circumstances (J : JupCfg) (L : RatioLib) (list : List SanctumLst) (S : SPool) {plan : RebalPlan} (t : RebalTx J.cfg plan)
    (w₀ w : World) (withdrawTo src dst : Pubkey) (amount quoted : Nat) : Prop where
  reachable : Reachable J.cfg L w₀
  starts : t.Starts L w₀ w
  mirrors : Mirrors J L t.env S w
  fromList : S.FromList J list
  backed : w.led.Backed
  active : Active w
  differ : src ≠ dst
  /-- the destination LST may be deposited -/
  input : ∀ (i : Nat) s, w.ctl.lsts[i]? = some s → s.mint = dst → s.isInputDisabled = 0
  /-- the pool has the amount -/
  enough : ∀ s d n, S.findReady src = .ok (s, d) → d.reserves = some n → amount ≤ n
  /-- the account the amount is withdrawn to is an account of the source LST outside the controller -/
  withdraw : ∃ a, Wallet J.cfg w.led withdrawTo src a
  /-- the instructions between StartRebalance and EndRebalance deliver what was quoted, whatever state StartRebalance leaves -/
  delivered : ∀ w', t.Reaches L w w' → Delivered J L t.env' S dst quoted w w'

/-- The entry of the Sanctum list for a mint. -/
def Listed (list : List SanctumLst) (e : SanctumLst) : Prop := list.find? (fun x => x.mint = e.mint) = some e

/-- The Sanctum list's entry for wrapped SOL. -/
def WsolListed (J : JupCfg) (list : List SanctumLst) : Prop :=
  ∃ e, list.find? (fun x => x.mint = J.wsolMint) = some e ∧ e.pool = .reservePool ∧ e.tokenProgram = J.cfg.splToken

/-! ### Proofs -/

theorem Ready.mirrors {J : JupCfg} {L : RatioLib} {env : Env J.cfg} {cs : List (FlatCall J.fc)} {S : SPool} {w : World}
    (h : Ready J L env cs S w) : Mirrors J L env S w :=
  ⟨h.pool, h.lsts, h.reserves, h.aligned, h.tokenPrograms, h.serves⟩

theorem Ledger.ExtOk.trans {cfg : Cfg} {a b c : Ledger} (h : a.ExtOk cfg b) (h' : b.ExtOk cfg c) : a.ExtOk cfg c where
  wf x := h'.wf (h.wf x)
  tok k x hx ho := by
    obtain ⟨n, hn, e⟩ := h.tok k x hx ho
    obtain ⟨n', hn', e'⟩ := h'.tok k _ e ho
    exact ⟨n', Nat.le_trans hn hn', e'⟩
  mint k m hm := by
    obtain ⟨m', e, e1, e2⟩ := h.mint k m hm
    obtain ⟨m'', e', e1', e2'⟩ := h'.mint k m' e
    exact ⟨m'', e', e1'.trans e1, e2'.trans e2⟩
  mintAuth k m m'' hm hm'' ha := by
    obtain ⟨m', e, -, -⟩ := h.mint k m hm
    obtain ⟨x, y⟩ := h.mintAuth k m m' hm e ha
    obtain ⟨x', y'⟩ := h'.mintAuth k m' m'' e hm'' x
    exact ⟨x', Nat.le_trans y' y⟩
  freezeAuth k m m'' hm hm'' ha := by
    obtain ⟨m', e, -, -⟩ := h.mint k m hm
    exact h'.freezeAuth k m' m'' e hm'' (h.freezeAuth k m m' hm e ha)
  exec k hk := h'.exec k (h.exec k hk)

theorem runActions_plain {cfg : Cfg} {L : RatioLib} {tx : TxInfo} {as : List (Action cfg)} (h : ∀ a ∈ as, ∃ f ok, a = Action.ext f ok) :
    ∀ w : World, ∃ w', runActions L tx w as = .ok w' ∧ w'.ctl = w.ctl ∧ w.led.ExtOk cfg w'.led := by
  induction as with
  | nil => exact fun w => ⟨w, rfl, rfl, .refl _ _⟩
  | cons a as ih =>
    intro w
    obtain ⟨f, ok, rfl⟩ := h a (List.mem_cons_self ..)
    obtain ⟨w', e, hc, ho⟩ := ih (fun a ha => h a (List.mem_cons_of_mem _ ha)) { w with led := f w.led }
    exact ⟨w', e, hc, (ok w.led).trans ho⟩

theorem runSteps_plain {cfg : Cfg} {L : RatioLib} {ixs : List TopIx} {ss : List (Step cfg)} (h : ∀ x ∈ ss, x.Plain) :
    ∀ (n : Nat) (w : World), ∃ w', runSteps L ixs n w ss = .ok w' ∧ w'.ctl = w.ctl ∧ w.led.ExtOk cfg w'.led := by
  induction ss with
  | nil => exact fun n w => ⟨w, rfl, rfl, .refl _ _⟩
  | cons x ss ih =>
    intro n w
    cases x with
    | controller c => exact (h _ (List.mem_cons_self ..)).elim
    | foreign ix hn as =>
      obtain ⟨w1, e1, c1, o1⟩ := runActions_plain (L := L) (tx := ⟨ixs, n⟩) (h _ (List.mem_cons_self ..)) w
      obtain ⟨w', e, hc, ho⟩ := ih (fun a ha => h a (List.mem_cons_of_mem _ ha)) (n + 1) w1
      refine ⟨w', ?_, hc.trans c1, o1.trans ho⟩
      simp only [runSteps, Step.run, e1]
      exact e

theorem runSteps_append {cfg : Cfg} {L : RatioLib} {ixs : List TopIx} (a b : List (Step cfg)) :
    ∀ (n : Nat) (w w' : World), runSteps L ixs n w a = .ok w' → runSteps L ixs n w (a ++ b) = runSteps L ixs (n + a.length) w' b := by
  induction a with
  | nil => intro n w w' h; cases h; rfl
  | cons x a ih =>
    intro n w w' h
    simp only [runSteps, bind_ok] at h
    obtain ⟨w1, h1, h2⟩ := h
    simp only [List.cons_append, runSteps, h1, List.length_cons]
    have := ih (n + 1) w1 w' h2
    rw [show n + (a.length + 1) = n + 1 + a.length by omega]
    exact this

/-- The invariant after changes made by other programs only. -/
theorem Inv.ext {cfg : Cfg} {w w' : World} (h : Inv cfg w) (hc : w'.ctl = w.ctl) (ho : w.led.ExtOk cfg w'.led) : Inv cfg w' := by
  have ht : Trace cfg w.led [.ext] w'.led := .cons (op := .ext) ho (.nil _)
  refine ⟨hc ▸ h.ctl, ho.wf h.wf, ?_, ?_⟩
  · intro s hs
    rw [hc] at hs
    obtain ⟨m, res, acc, ra, fa, hl⟩ := h.accs s hs
    obtain ⟨m', ra', fa', hl'⟩ := hl.trace ht (by simp) (by simp)
    exact ⟨m', res, acc, ra', fa', hl'⟩
  · intro p hp
    rw [hc] at hp
    obtain ⟨m, hm, h1, h2, h3, h4⟩ := h.lp p hp
    obtain ⟨m', hm', e1, e2, e3, e4⟩ := ht.mint hm
    exact ⟨m', hm', e1.trans h1, e2.trans h2, (e3 h3 (by simp)).1, e4 h4 (by simp)⟩

section
variable {J : JupCfg} {L : RatioLib} {S : SPool} {w : World}

theorem Mirrors.ready {env : Env J.cfg} (hf : Mirrors J L env S w) (hnd : (w.ctl.lsts.map LstState.mint).Nodup) {mint : Pubkey} {s s' : LstState}
    {d : LstData} {i : Nat} (h : S.findReady mint = .ok (s, d)) (hs' : w.ctl.lsts[i]? = some s') (hm : s'.mint = mint) :
    s = s' ∧ S.data[i]? = some (some d) := by
  obtain ⟨lsts, j, hl, hj, hd, hmj⟩ := SPool.findReady_ok h
  have := hf.lsts _ hl
  subst this
  have hij : j = i := by
    have hk' : (w.ctl.lsts.map LstState.mint)[j]? = (w.ctl.lsts.map LstState.mint)[i]? := by simp [hj, hs', hmj, hm]
    exact (List.getElem?_inj (by simpa using (List.getElem?_eq_some_iff.1 hj).1) hnd).1 hk'
  subst hij
  rw [hs'] at hj; cases hj
  exact ⟨rfl, hd⟩

/-- The instructions the tool builds, in full. -/
theorem rebalIxs_ok {withdrawTo : Pubkey} {src dst : MintAcc} {amount : Nat} {sm dm : List Acc} {start finish : TopIx}
    (h : rebalIxs J S withdrawTo src dst amount sm dm = .ok (start, finish)) (ha : amount < U64) :
    ∃ p lsts i j s d sr dr, S.pool = .ok p ∧ S.lstList.lsts = .ok lsts ∧ findLst src.key lsts = .ok (i, s) ∧
      findLst dst.key lsts = .ok (j, d) ∧ J.cfg.ata J.cfg.poolState src.owner s.mint s.poolReservesBump = some sr ∧
      J.cfg.ata J.cfg.poolState dst.owner d.mint d.poolReservesBump = some dr ∧ i < 2 ^ 32 ∧ j < 2 ^ 32 ∧
      decodeIx start.data = .ok (.startRebalance ⟨sm.length, i, j, amount, 0, U64 - 1⟩) ∧
      decodeIx finish.data = .ok .endRebalance ∧ finish.data = Ix.endRebalance.encode ∧
      (⟨p.rebalanceAuthority, J.cfg.poolState, J.cfg.lstStateList, J.cfg.rebalanceRecord, s.mint, d.mint, sr, dr, withdrawTo,
        J.cfg.instructionsSysvar, J.cfg.systemProgram, src.owner⟩ : StartKeys).metas ++
          (roMeta s.solValueCalculator :: sm.drop 1 ++ roMeta d.solValueCalculator :: dm.drop 1) = start.accs ∧
      (1 ≤ sm.length → (⟨p.rebalanceAuthority, J.cfg.poolState, J.cfg.lstStateList, J.cfg.rebalanceRecord, d.mint, dr⟩ : EndKeys).metas ++
          roMeta d.solValueCalculator :: dm.drop 1 = finish.accs) := by
  simp only [rebalIxs, startRebalanceByMints, resolveStart, startRebalanceIx, bind_ok, Prod.exists, pure_ok, Prod.mk.injEq, indexToU32_ok,
    extendSrcDst_ok, poolReserves_ok] at h
  obtain ⟨p, hp, lsts, hl, st, ⟨k, f, ⟨i, s, hi, sr, hsr, j, d, hj, dr, hdr, rfl, rfl⟩, i', ⟨hi32, hie⟩, j', ⟨hj32, hje⟩, out, n, n', ⟨hn, hn', rfl, rfl, rfl⟩,
    rfl⟩, fin, hfin, rfl, rfl⟩ := h
  subst hie hje
  have hdec : decodeIx (overwrite (Ix.startRebalance ⟨0, i', j', amount, 0, U64 - 1⟩).encode
      (Ix.startRebalance ⟨sm.length, i', j', amount, 0, U64 - 1⟩).encode) = .ok (.startRebalance ⟨sm.length, i', j', amount, 0, U64 - 1⟩) := by
    rw [overwrite_same (encode_length_start _ _)]
    apply C38_roundtrip
    simp only [Ix.Wf]
    refine ⟨by omega, hi32, hj32, ?_, by decide, by decide⟩
    unfold U64 at ha; omega
  simp only [endFromStartIx, bind_ok] at hfin
  obtain ⟨x, hx, hfin⟩ := hfin
  rw [hdec] at hx; cases hx
  simp only [bind_ok, require_ok, exists_const, pure_ok] at hfin
  obtain ⟨hlen, k', hk', rfl⟩ := hfin
  simp only [StartKeys.metas, List.cons_append, StartKeys.ofAccs, Except.ok.injEq] at hk'
  subst hk'
  refine ⟨p, lsts, i', j', s, d, sr, dr, hp, hl, hi, hj, hsr, hdr, hi32, hj32, hdec, C38_roundtrip _ trivial, rfl, ?_, ?_⟩
  · simp
  · intro h1
    simp only [StartKeys.toEnd, StartKeys.metas, roMeta, sgMeta, wrMeta, List.cons_append, List.nil_append, List.append_assoc]
    congr 1
    obtain ⟨y, ys, rfl⟩ : ∃ y ys, sm = y :: ys := by
      cases sm with
      | nil => simp at h1
      | cons y ys => exact ⟨y, ys, rfl⟩
    have : 12 + (y :: ys).length = (12 + 1) + ys.length := by simp; omega
    rw [this, ← List.drop_drop]
    simp
/-- What the three commands share: the transaction succeeds if what is delivered is worth what is withdrawn. -/
theorem rebal_core {w₀ : World} (hreach : Reachable J.cfg L w₀) {plan : RebalPlan} (t : RebalTx J.cfg plan) (hst : t.Starts L w₀ w)
    (hsh : Mirrors J L t.env S w) (hb : w.led.Backed) (hact : Active w) {withdrawTo : Pubkey} {src dst : MintAcc} {amount : Nat}
    {sm dm : List Acc} (hix : rebalIxs J S withdrawTo src dst amount sm dm = .ok (plan.start, plan.finish)) (hne : src.key ≠ dst.key)
    {p : PoolState} (hp : S.pool = .ok p) {s s' : LstState} {d d' : LstData} (hs : S.findReady src.key = .ok (s, d))
    (hs' : S.findReady dst.key = .ok (s', d')) {n n' : Nat} (hn : d.reserves = some n) (hn' : d'.reserves = some n') {v u : Range}
    (hv : d.solCalc.lstToSol L S.epoch n = .ok v) (hu : d'.solCalc.lstToSol L S.epoch n' = .ok u)
    (hfit1 : p.totalSolValue - s.solValue + v.min < U64) (hfit2 : p.totalSolValue - s.solValue + v.min - s'.solValue + u.min < U64)
    (hsm : sm = d.solCalc.ixAccounts J) (hdm : dm = d'.solCalc.ixAccounts J) (hso : src.owner = d.tokenProgram)
    (hdo : dst.owner = d'.tokenProgram) (hen : amount ≤ n) {wt : TokenAcc} (hw : Wallet J.cfg w.led withdrawTo src.key wt)
    (hinp : s'.isInputDisabled = 0) {q : Nat} (hdel : ∀ w2, t.Reaches L w w2 → Delivered J L t.env' S dst.key q w w2)
    (hneed : v.min + u.min < U64 → ∀ x r, n' + q ≤ x → d'.solCalc.lstToSol L S.epoch x = .ok r →
      ∃ l, d.solCalc.lstToSol L S.epoch (n - amount) = .ok l ∧ v.min + u.min ≤ l.min + r.min) :
    ∃ w', Tx.run L w₀ t.tx = .ok w' := by
  obtain ⟨wpre, epre, cpre, opre⟩ := runSteps_plain (L := L) (ixs := t.tops) t.plainPre 0 w₀
  rw [RebalTx.Starts, epre] at hst; cases hst
  have hinv : Inv J.cfg w := hreach.inv.ext cpre opre
  have hreb : w.ctl.rebal = none := by
    rw [cpre]; obtain ⟨w00, hf, h, rfl⟩ := hreach; exact (C02_never_left_rebalancing L hf h).1
  have hpw := hsh.pool p hp
  obtain ⟨pw, hpw', hdis, hreb'⟩ := hact
  rw [hpw] at hpw'; cases hpw'
  obtain ⟨lsts0, j0, hl0, hj0, -, hmj0⟩ := SPool.findReady_ok hs
  have hamt : amount < U64 := by
    obtain ⟨lsts1, i1, hl1, hi1, hd1, hm1⟩ := SPool.findReady_ok hs
    rw [← hsh.lsts _ hl1] at hi1
    obtain ⟨m, rk, ak, ra, fa, la⟩ := hinv.accs s (List.mem_of_getElem? hi1)
    have hbal := hsh.reserves i1 s d n m _ hi1 hd1 hn la.mint la.res_key
    rw [bal, la.res] at hbal
    have hbal : ra.amount = n := hbal
    have := hinv.wf.tok_u64 _ _ la.res
    omega
  obtain ⟨p1, lsts, i, j, s1, s1', sr, dr, hp1, hl, hfi, hfj, hsr, hdr, hi32, hj32, hdec, hdecE, hfd, hsa, hfa⟩ := rebalIxs_ok hix hamt
  rw [hp] at hp1; cases hp1
  have hlw := hsh.lsts lsts hl
  subst hlw
  obtain ⟨hsi, hsmint, -⟩ := findLst_ok.1 hfi
  obtain ⟨hdj, hdmint, -⟩ := findLst_ok.1 hfj
  obtain ⟨rfl, hd⟩ := hsh.ready hinv.ctl.mints hs hsi hsmint
  obtain ⟨rfl, hd'⟩ := hsh.ready hinv.ctl.mints hs' hdj hdmint
  have hij : i ≠ j := by
    rintro rfl
    rw [hsi] at hdj; cases hdj
    exact hne (hsmint.symm.trans hdmint)
  obtain ⟨m, rk, ak, ra, fa, la⟩ := hinv.accs s (List.mem_of_getElem? hsi)
  obtain ⟨m', rk', ak', ra', fa', la'⟩ := hinv.accs s' (List.mem_of_getElem? hdj)
  have htp := hsh.tokenPrograms i s d m hsi hd la.mint
  have htp' := hsh.tokenPrograms j s' d' m' hdj hd' la'.mint
  rw [hso, htp, la.res_key] at hsr
  obtain rfl : rk = sr := by injection hsr
  rw [hdo, htp', la'.res_key] at hdr
  obtain rfl : rk' = dr := by injection hdr
  obtain ⟨_, hal, _, hal3⟩ := hsh.aligned
  rw [hl] at hal; cases hal
  obtain ⟨hcm, -⟩ := hal3 i s d hsi hd
  obtain ⟨hcm', -⟩ := hal3 j s' d' hdj hd'
  obtain ⟨rest, hrest⟩ := d.solCalc.ixAccounts_head J
  obtain ⟨rest', hrest'⟩ := d'.solCalc.ixAccounts_head J
  rw [hcm] at hrest
  rw [hcm'] at hrest'
  have hbal := hsh.reserves i s d n m _ hsi hd hn la.mint la.res_key
  have hbal' := hsh.reserves j s' d' n' m' _ hdj hd' hn' la'.mint la'.res_key
  have hbalk : bal w.led rk' = ra'.amount := by rw [bal, la'.res]; rfl
  rw [bal, la.res] at hbal
  rw [hbalk] at hbal'
  have hbal : ra.amount = n := hbal
  subst hbal hbal'
  obtain ⟨c, hc, hv'⟩ := KnownCalc.lstToSol_ok hv
  obtain ⟨c', hc', hu'⟩ := KnownCalc.lstToSol_ok hu
  obtain ⟨hus, hss⟩ := hsh.serves i s d c hsi hd hc
  obtain ⟨hud, hsd⟩ := hsh.serves j s' d' c' hdj hd' hc'
  have hsum : s.solValue + s'.solValue ≤ p.totalSolValue := by
    rw [hinv.ctl.total p hpw]
    exact sumSol_two hsi hdj hij
  -- StartRebalance
  have hwne : rk ≠ withdrawTo := by
    rintro rfl
    have h := hw.tok
    rw [la.res] at h; cases h
    exact hw.notPool la.ra_owner
  have hlen1 : 1 ≤ sm.length := by rw [hsm, hrest]; simp
  have hfa := hfa hlen1
  have hmid : (t.tops.drop (t.pre.length + 1)) = t.mid.map Step.top ++ [t.endStep.top] := by
    simp [RebalTx.tops, RebalTx.tx, List.drop_append]
  have hsucc : verifySucceedingEnd J.cfg ⟨t.tops, t.pre.length⟩ s'.mint = .ok () := by
    simp only [verifySucceedingEnd, hmid]
    refine searchEnd_iff.2 ⟨t.endStep.top, by simp, isEndRebalanceIx_iff.2 ⟨rfl, by simp only [RebalTx.endStep, Step.top, hfd]; rfl, ?_⟩⟩
    have hx := t.seen'
    rw [← hfa] at hx
    simp only [EndKeys.metas, List.cons_append] at hx
    obtain ⟨x1, l1, e0, e1, hx⟩ := hx.cons_inv
    obtain ⟨x2, l2, rfl, e2, hx⟩ := hx.cons_inv
    obtain ⟨x3, l3, rfl, e3, hx⟩ := hx.cons_inv
    obtain ⟨x4, l4, rfl, e4, hx⟩ := hx.cons_inv
    obtain ⟨x5, l5, rfl, e5, hx⟩ := hx.cons_inv
    refine ⟨x5, ?_, e5.key⟩
    simp [RebalTx.endStep, Step.top, e0]
  have hm := la.mint
  have hroom := hb.room hinv.wf (Ne.symm hwne) hw.tok la.res hw.mint (la.ra_mint.trans hsmint) (by rw [← hsmint]; exact la.mint)
  have hstart := start_live (L := L) (env := t.env) (tx := ⟨t.tops, t.pre.length⟩) (w := w)
    (k := ⟨p.rebalanceAuthority, J.cfg.poolState, J.cfg.lstStateList, J.cfg.rebalanceRecord, s.mint, s'.mint, rk, rk', withdrawTo,
        J.cfg.instructionsSysvar, J.cfg.systemProgram, src.owner⟩) (i := i) (j := j)
    (src := ⟨s.solValueCalculator, d.solCalc.ixAccounts J⟩) (dst := ⟨s'.solValueCalculator, d'.solCalc.ixAccounts J⟩)
    (cs := c) (cd := c') (p := p) (s := s) (d := s') (amount := amount) (mn := 0) (mx := U64 - 1)
    { poolKey := rfl, listKey := rfl, recordKey := rfl, ixKey := rfl, sysKey := rfl, pool := hpw, notReb := hreb', notDis := hdis
      noRec := hreb, auth := rfl, srcEntry := hsi, dstEntry := hdj, srcMint := rfl, dstMint := rfl, inputOk := hinp
      srcProg := ⟨m, la.mint, by rw [hso, htp]⟩, srcRes := by rw [hso, htp]; exact la.res_key
      dstRes := ⟨m', la'.mint, la'.res_key⟩, srcCalc := rfl, dstCalc := rfl, srcMetas := ⟨_, hrest⟩, dstMetas := ⟨_, hrest'⟩ }
    (accs := t.accs) (by rw [← hsm, ← hdm, hsa]; exact t.seen) hij hus hud hss hsd (m := m) (ra := ra) (da := ra') (wt := wt)
    la.mint ⟨la.res, by rw [la.ra_prog, hso, htp], la.ra_mint⟩ la.ra_owner la'.res
    ⟨hw.tok, by rw [hso, htp]; exact hw.program m (by rw [← hsmint]; exact la.mint), hw.mint.trans hsmint.symm⟩ hwne
    (hinv.wf.tok_u64 _ _ la.res) (hinv.wf.tok_u64 _ _ la'.res) (by rw [hso, htp]) (Nat.zero_le _)
    (by have := hinv.wf.tok_u64 _ _ la'.res; omega) hen (by omega) hsucc hv' hu' hsum hfit1 hfit2
  have hrun1 := hstart
  rw [← hsm] at hrun1
  have hproc : processIx J.cfg L t.env ⟨t.tops, t.pre.length⟩ w t.accs (.startRebalance ⟨sm.length, i, j, amount, 0, U64 - 1⟩) =
      .ok ⟨w.ctl.started p i j s s' v.min u.min (c.f (ra.amount - amount)), w.led.move rk withdrawTo ra wt amount⟩ := hrun1
  generalize hw1 : (⟨w.ctl.started p i j s s' v.min u.min (c.f (ra.amount - amount)), w.led.move rk withdrawTo ra wt amount⟩ : World) = w1 at hproc
  have hinv1 := hinv.ix hproc
  have hstep : t.startStep.run L ⟨t.tops, t.pre.length⟩ w = .ok w1 := by
    simp only [RebalTx.startStep, Step.run, Call.run, bind_ok, require_ok, exists_const]
    exact ⟨t.signers, by rw [processInstruction_of_decode L _ _ _ _ hdec]; exact hproc⟩
  -- between
  obtain ⟨w2, emid, cmid, omid⟩ := runSteps_plain (L := L) (ixs := t.tops) t.plainMid (t.pre.length + 1) w1
  have hinv2 := hinv1.ext cmid omid
  have hctl2 : w2.ctl = w.ctl.started p i j s s' v.min u.min (c.f (ra.amount - amount)) := by rw [cmid, ← hw1]
  have hli := (List.getElem?_eq_some_iff.1 hsi).1
  have hlj := (List.getElem?_eq_some_iff.1 hdj).1
  have hent : w2.ctl.lsts[j]? = some { s' with solValue := u.min } := by
    rw [hctl2]; simp [Ctl.started, hij, hlj]
  obtain ⟨m2, rk2, ak2, ra2, fa2, la2⟩ := hinv2.accs _ (List.mem_of_getElem? hent)
  have hmprog : m2.program = m'.program := by
    have e : w1.led.mints s'.mint = some m' := by rw [← hw1]; exact la'.mint
    obtain ⟨mm, hmm, e1, -⟩ := omid.mint _ _ e
    have := la2.mint
    simp only at this
    rw [hmm] at this; cases this
    exact e1
  have hrk : rk2 = rk' := by
    have h1 := la2.res_key
    rw [hmprog] at h1
    simp only at h1
    rw [la'.res_key] at h1; injection h1 with h1; exact h1.symm
  subst hrk
  have hpool2 : w2.ctl.pool = some { p with
      totalSolValue := p.totalSolValue - s.solValue + v.min - s'.solValue + u.min - v.min + c.f (ra.amount - amount)
      isRebalancing := 1 } := by rw [hctl2]; rfl
  obtain ⟨hbal2, c2, r, r', huc2, hserve2, hr, hr', hrle, hfit⟩ := hdel w2 ⟨w1, hstep, emid⟩ j s' d' m' rk2 _ hdj hdmint hd'
    (by rw [← hdmint]; exact la'.mint) (by rw [← hdmint]; exact la'.res_key) hpool2
  have hfit := hfit _ hent
  have hb2 : bal w2.led rk2 = ra2.amount := by rw [bal, la2.res]; rfl
  rw [hb2] at hbal2 hr hr'
  rw [hbalk] at hbal2
  obtain ⟨l, hl', hkeep⟩ := hneed (by omega) _ r hbal2 hr
  obtain ⟨cc, hcc, hl'⟩ := KnownCalc.lstToSol_ok hl'
  rw [hc] at hcc; cases hcc
  have hlf := (AnyCalc.is L hus).lstToSol hl'
  simp only at hfit
  have hmono : c.f (ra.amount - amount) ≤ v.min := by
    have := (c.conv hus (AnyCalc.answers_of (.inl hv'))).fmono (a := ra.amount - amount) (b := ra.amount) (by omega)
    rw [(AnyCalc.is L hus).lstToSol hv']; exact this
  have hlmin : l.min = c.f (ra.amount - amount) := by rw [hlf]; rfl
  obtain ⟨w3, hend⟩ := end_live (L := L) (env := t.env') (w := w2)
    (k := ⟨p.rebalanceAuthority, J.cfg.poolState, J.cfg.lstStateList, J.cfg.rebalanceRecord, s'.mint, rk2⟩) (j := j)
    (dst := ⟨s'.solValueCalculator, d'.solCalc.ixAccounts J⟩) (cd := c2) (p := _)
    (rr := ⟨p.totalSolValue - s.solValue + v.min - s'.solValue + u.min, j⟩) (d := { s' with solValue := u.min })
    { poolKey := rfl, listKey := rfl, recordKey := rfl, pool := hpool2, reb := by simp, record := by rw [hctl2]; rfl, index := rfl, auth := rfl
      dstEntry := hent, dstMint := rfl, dstRes := ⟨m2, la2.mint, la2.res_key⟩, dstCalc := rfl, dstMetas := ⟨_, hrest'⟩ }
    (accs := t.accs') (by rw [← hdm, hfa]; exact t.seen') huc2 hserve2 la2.res (hinv2.wf.tok_u64 _ _ la2.res) hr'
    (by simp only; omega) hfit (by simp only; omega)
  refine ⟨w3, ?_⟩
  have h1 := runSteps_append (L := L) (ixs := t.tops) t.pre (t.startStep :: (t.mid ++ [t.endStep])) 0 w₀ w epre
  rw [Tx.run]
  change runSteps L t.tops 0 w₀ t.tx = _
  rw [RebalTx.tx, h1]
  simp only [runSteps, Nat.zero_add, hstep]
  change runSteps L t.tops (t.pre.length + 1) w1 (t.mid ++ [t.endStep]) = _
  rw [runSteps_append (L := L) (ixs := t.tops) t.mid [t.endStep] (t.pre.length + 1) w1 w2 emid]
  simp only [runSteps, RebalTx.endStep, Step.run, Call.run, bind_ok, require_ok, exists_const]
  refine ⟨w3, ⟨t.signers', ?_⟩, rfl⟩
  rw [processInstruction_of_decode L _ _ _ _ hdecE]
  exact hend
end

/-! ### What a deposit of the maximum of a conversion adds -/

theorem floor_add {n d b c : Nat} (hd : 0 < d) (x : Nat) (h : d * x ≤ c * n) : b * n / d + x ≤ (b + c) * n / d := by
  rw [le_div hd, Nat.add_mul, Nat.add_mul]
  have := div_mul_le (b * n) d
  have : x * d ≤ c * n := by rw [Nat.mul_comm]; exact h
  omega

theorem cdiv_add {n d b c x : Nat} (hd : 0 < d) (h : d * x ≤ c * n) : cdiv (b * n) d + x ≤ cdiv ((b + c) * n) d := by
  by_contra hc
  have h1 : cdiv ((b + c) * n) d ≤ cdiv (b * n) d + x - 1 := by omega
  rw [cdiv_le_iff hd, Nat.add_mul] at h1
  have h2 := cdiv_mul_lt (b * n) hd
  have h3 : (cdiv (b * n) d + x - 1) * d + d = cdiv (b * n) d * d + x * d := by
    rw [← Nat.add_mul, ← Nat.succ_mul]; congr 1; omega
  have h4 : x * d ≤ c * n := by rw [Nat.mul_comm]; exact h
  omega

theorem splFee_add {n d : Nat} (h : n = 0 ∨ n < d) (b y : Nat) : splFee n d b + y ≤ splFee n d (b + splFeeMax n d y) := by
  unfold splFee splFeeMax
  by_cases hn : n = 0
  · simp [hn]
  · have hd : n < d := by omega
    simp only [hn, if_false]
    refine floor_add (by omega) y ?_
    have := le_cdiv_mul (d * (y + 1)) (show 0 < d - n by omega)
    have h2 : d * y ≤ d * (y + 1) := Nat.mul_le_mul_left d (by omega)
    omega

theorem mndeFee_raise {n : Nat} (h : n < MAX_BP_CENTS) (b y : Nat) : mndeFee n b + y ≤ mndeFee n (b + mndeFeeMax n y) := by
  unfold mndeFee mndeFeeMax
  by_cases hn : n = 0
  · simp [hn]
  · simp only [hn, if_false]
    exact cdiv_add (by decide) (le_cdiv_mul _ (by omega))

/-- Adding the maximum of the LST amounts worth `x` raises the value of a balance by `x`, whatever the balance. -/
theorem AnyCalc.raise {c : AnyCalc} (h : c.Usable) (ha : c.Answers) (b x : Nat) : c.f b + x ≤ c.f (b + c.rmax x) := by
  have floor : ∀ {n d : Nat}, 0 < n → 0 < d → ∀ b x, b * n / d + x ≤ (b + cdiv (d * (x + 1)) n) * n / d := by
    intro n d hn hd b x
    refine floor_add hd x ?_
    have := le_cdiv_mul (d * (x + 1)) hn
    have h2 : d * x ≤ d * (x + 1) := Nat.mul_le_mul_left d (by omega)
    omega
  cases c with
  | wsol => exact Nat.le_refl _
  | lido c => exact floor (by have := h.1; omega) (by have := h.2; omega) b x
  | spl c =>
    have h1 := splFee_add h.2.2 b (cdiv (c.poolTokenSupply * (x + 1)) c.totalLamports)
    have h2 := floor (n := c.totalLamports) (d := c.poolTokenSupply) (by have := h.1; omega) (by have := h.2.1; omega)
      (splFee c.feeNum c.feeDenom b) x
    exact h2.trans (Nat.div_le_div_right (Nat.mul_le_mul_right _ h1))
  | marinade c =>
    obtain ⟨n, hn⟩ := ha
    have hn0 : 0 < n := by
      have := h.1
      rw [hn] at this
      exact Nat.pos_of_ne_zero fun e => this (by rw [e])
    have e : c.totalVirtualStaked.toOption.getD 0 = n := by rw [hn]; rfl
    simp only [AnyCalc.f, AnyCalc.rmax, e]
    have h1 := floor (n := n) (d := c.msolSupply) hn0 (by have := h.2.1; omega) b (mndeFeeMax c.withdrawStakeAccountFeeCents x)
    have h2 := mndeFee_raise h.2.2 (b * n / c.msolSupply) x
    exact h2.trans ((mndeFee_conv h.2.2).fmono h1)

section
variable {J : JupCfg} {L : RatioLib} {list : List SanctumLst} {S : SPool} {w₀ w : World} {plan : RebalPlan} {t : RebalTx J.cfg plan}
  {withdrawTo auth : Pubkey}

/-- The accounts the tool lists for a calculator, and the token program, are those of the cache. -/
theorem metas_ok (hfl : S.FromList J list) (hal : S.Aligned J) {e : SanctumLst} (he : Listed list e) {s : LstState} {d : LstData}
    (h : S.findReady e.mint = .ok (s, d)) {ms : List Acc} (hm : calcMetas J e = .ok ms) :
    ms = d.solCalc.ixAccounts J ∧ e.tokenProgram = d.tokenProgram := by
  obtain ⟨lsts, i, hl, hi, hd, hmi⟩ := SPool.findReady_ok h
  obtain ⟨_, hl', _, hal3⟩ := hal
  rw [hl] at hl'; cases hl'
  obtain ⟨hcm, -⟩ := hal3 i s d hi hd
  obtain ⟨e', he', htp, hof⟩ := hfl d (List.mem_of_getElem? hd)
  rw [hcm, hmi] at he'
  rw [Listed, he'] at he; cases he
  refine ⟨?_, htp.symm⟩
  simp only [calcMetas, bind_ok, okOr_ok, pure_ok] at hm
  obtain ⟨k, hk, rfl⟩ := hm
  cases hc : d.solCalc <;> rw [hc] at hof <;> simp only [KnownCalc.Of] at hof
  all_goals first
    | (rw [hof] at hk; cases hk; rfl)
    | (obtain ⟨h1, h2⟩ := hof; rw [h1] at hk; cases hk; rw [h2]; rfl)

theorem wsol_slot (hfl : S.FromList J list) (hal : S.Aligned J) (hws : WsolListed J list) {s : LstState} {d : LstData}
    (h : S.findReady J.wsolMint = .ok (s, d)) : d.solCalc = .wsol ∧ d.tokenProgram = J.cfg.splToken := by
  obtain ⟨lsts, i, hl, hi, hd, hmi⟩ := SPool.findReady_ok h
  obtain ⟨_, hl', _, hal3⟩ := hal
  rw [hl] at hl'; cases hl'
  obtain ⟨hcm, -⟩ := hal3 i s d hi hd
  obtain ⟨e', he', htp, hof⟩ := hfl d (List.mem_of_getElem? hd)
  obtain ⟨e, he, hp, ht⟩ := hws
  rw [hcm, hmi, he] at he'; cases he'
  refine ⟨?_, htp.trans ht⟩
  cases hc : d.solCalc <;> rw [hc] at hof <;> simp only [KnownCalc.Of, hp] at hof <;> simp at hof ⊢

theorem wsol_value {epoch x : Nat} {r : Range} (h : KnownCalc.wsol.lstToSol L epoch x = .ok r) : r.min = x := by
  simp only [KnownCalc.lstToSol, KnownCalc.usable, bind_ok, pure_ok] at h
  obtain ⟨_, rfl, h⟩ := h
  cases h; rfl

theorem wsol_lstToSol (epoch x : Nat) : KnownCalc.wsol.lstToSol L epoch x = .ok (Range.single x) := rfl

theorem checkRebalAuth_ok (h : checkRebalAuth S auth = .ok ()) : ∃ p, S.pool = .ok p ∧ auth = p.rebalanceAuthority := by
  simpa only [checkRebalAuth, bind_ok, require_ok, exists_const] using h

/-- C56, `rebal-sol`: a planned rebalance of wrapped SOL into an LST executes. If the command, run on a cache that shows the chain, decides on a
subsidy and builds its instructions, and what the stake pool's quote and the subsidy promise is delivered to the reserves between the two
instructions of the controller, the transaction succeeds. -/
theorem C56_rebalSol {e : SanctumLst} {lamports minted : Nat} {payer : Option Nat}
    (hplan : rebalSol J L S auth e lamports minted payer withdrawTo = .ok plan)
    (h : Circumstances J L list S t w₀ w withdrawTo J.wsolMint e.mint lamports (minted + plan.subsidy))
    (he : Listed list e) (hws : WsolListed J list) (hfits : S.SyncFits L J.wsolMint e.mint) : ∃ w', Tx.run L w₀ t.tx = .ok w' := by
  simp only [rebalSol, bind_ok, Prod.exists, pure_ok] at hplan
  obtain ⟨_, -, s1, d1, hfr, req, hreq, _, -, dm, hdm, st, fin, hix, hpl⟩ := hplan
  obtain ⟨p, s, d, n, s', d', n', v, u, hp, hs, hn, hs', hn', hv, hu, hf1, hf2⟩ := hfits
  obtain ⟨rfl, rfl⟩ : s' = s1 ∧ d' = d1 := by rw [hs'] at hfr; injection hfr with hfr; injection hfr with a b; exact ⟨a, b⟩
  obtain ⟨hm, htp⟩ := metas_ok h.fromList h.mirrors.aligned he hs' hdm
  obtain ⟨hwc, hwt⟩ := wsol_slot h.fromList h.mirrors.aligned hws hs
  obtain ⟨a, ha⟩ := h.withdraw
  have hen := h.enough s d n hs hn
  obtain ⟨lsts, j, hl, hj, hjd, hjm⟩ := SPool.findReady_ok hs'
  have hlw := h.mirrors.lsts _ hl
  subst hlw
  have e1 : plan.start = st := by rw [← hpl]
  have e2 : plan.finish = fin := by rw [← hpl]
  have e3 : plan.subsidy = req.max - minted := by rw [← hpl]
  refine rebal_core h.reachable t h.starts h.mirrors h.backed h.active (by rw [e1, e2]; exact hix) h.differ hp hs hs' hn hn' hv hu hf1 hf2
    (by rw [hwc]) hm hwt.symm htp hen ha (h.input j s' hj hjm) h.delivered ?_
  intro _ x r hx hr
  rw [hwc] at hv ⊢
  refine ⟨_, wsol_lstToSol _ _, ?_⟩
  rw [wsol_value hv]
  obtain ⟨c, hc, hu'⟩ := KnownCalc.lstToSol_ok hu
  obtain ⟨c', hc', hr'⟩ := KnownCalc.lstToSol_ok hr
  rw [hc] at hc'; cases hc'
  obtain ⟨c', hc', hreq'⟩ := KnownCalc.solToLst_ok hreq
  rw [hc] at hc'; cases hc'
  obtain ⟨hus, -⟩ := h.mirrors.serves j s' d' c hj hjd hc
  have hans : c.Answers := AnyCalc.answers_of (.inl hu')
  have k1 := (AnyCalc.is L hus).lstToSol hu'
  have k2 := (AnyCalc.is L hus).lstToSol hr'
  have k3 := (AnyCalc.is L hus).solToLst hreq'
  have k4 := AnyCalc.raise hus hans n' lamports
  have hreqm : req.max = c.rmax lamports := by rw [k3]
  have k5 := (c.conv hus hans).fmono (a := n' + c.rmax lamports) (b := x) (by omega)
  rw [k1, k2]
  simp only [Range.single]
  omega

theorem applySyncFull_ok {total : Nat} {s : LstState} {d : LstData} {t' v' r' : Nat} (h : S.applySyncFull L total s d = .ok (t', v', r')) :
    ∃ v, d.reserves = some r' ∧ d.solCalc.lstToSol L S.epoch r' = .ok v ∧ v' = v.min ∧ s.solValue ≤ total ∧
      t' = total - s.solValue + v.min ∧ t' < U64 := by
  simp only [SPool.applySyncFull, bind_ok, okOr_ok, pure_ok, Prod.mk.injEq, syncedTotal, subU64_ok, addU64_ok] at h
  obtain ⟨n, hn, v, hv, _, ⟨_, ⟨rfl, h1⟩, rfl, h2⟩, rfl, rfl, rfl⟩ := h
  exact ⟨v, hn, hv, rfl, h1, rfl, h2⟩

theorem raiseUntil_ok {epoch : Nat} {c : KnownCalc} {required : Nat} {fuel x y : Nat} (h : raiseUntil L epoch c required fuel x = .ok y) :
    x ≤ y ∧ ∃ r, c.lstToSol L epoch y = .ok r ∧ required ≤ r.min := by
  induction fuel generalizing x with
  | zero => cases h
  | succ f ih =>
    simp only [raiseUntil, bind_ok] at h
    obtain ⟨v, hv, h⟩ := h
    split at h
    · obtain ⟨h1, h2⟩ := ih h
      exact ⟨by omega, h2⟩
    · simp only [pure_ok] at h; subst h
      exact ⟨Nat.le_refl _, v, hv, by omega⟩

/-- C56, `rebal-stake`: a planned rebalance of one LST into another executes. -/
theorem C56_rebalStake {a b : SanctumLst} {amt tokensOut : Nat} {payer : Option Nat}
    (hplan : rebalStake J L S auth a b amt tokensOut payer withdrawTo = .ok plan)
    (h : Circumstances J L list S t w₀ w withdrawTo a.mint b.mint amt (tokensOut + plan.subsidy))
    (ha : Listed list a) (hb : Listed list b) : ∃ w', Tx.run L w₀ t.tx = .ok w' := by
  simp only [rebalStake, rebalStakeSubsidy, bind_ok, Prod.exists, pure_ok] at hplan
  obtain ⟨_, -, sub, ⟨p, hp, s, d, hs, s', d', hs', T, fv, fb, hsy, T', tv, tb, hsy', left, hleft, e, he, ending, hend, hsub⟩, _, -, sm, hsm, dm, hdm,
    st, fin, hix, hpl⟩ := hplan
  obtain ⟨v, hn, hv, rfl, hle1, rfl, hf1⟩ := applySyncFull_ok hsy
  obtain ⟨u, hn', hu, rfl, hle2, rfl, hf2⟩ := applySyncFull_ok hsy'
  obtain ⟨hm, htp⟩ := metas_ok h.fromList h.mirrors.aligned ha hs hsm
  obtain ⟨hm', htp'⟩ := metas_ok h.fromList h.mirrors.aligned hb hs' hdm
  obtain ⟨wa, hwa⟩ := h.withdraw
  have hen := h.enough s d _ hs hn
  obtain ⟨lsts, j, hl, hj, hjd, hjm⟩ := SPool.findReady_ok hs'
  have hlw := h.mirrors.lsts _ hl
  subst hlw
  have e1 : plan.start = st := by rw [← hpl]
  have e2 : plan.finish = fin := by rw [← hpl]
  have e3 : plan.subsidy = ending - tb - tokensOut := by rw [← hpl, ← hsub]
  refine rebal_core h.reachable t h.starts h.mirrors h.backed h.active (by rw [e1, e2]; exact hix) h.differ hp hs hs' hn hn' hv hu hf1 hf2
    hm hm' htp htp' hen hwa (h.input j s' hj hjm) h.delivered ?_
  intro hlt x r hx hr
  refine ⟨left, hleft, ?_⟩
  obtain ⟨-, re, hre, hreq⟩ := raiseUntil_ok hend
  obtain ⟨c, hc, hre'⟩ := KnownCalc.lstToSol_ok hre
  obtain ⟨c', hc', hr'⟩ := KnownCalc.lstToSol_ok hr
  rw [hc] at hc'; cases hc'
  obtain ⟨hus, -⟩ := h.mirrors.serves j s' d' c hj hjd hc
  have k1 := (AnyCalc.is L hus).lstToSol hre'
  have k2 := (AnyCalc.is L hus).lstToSol hr'
  have k3 := (c.conv hus (AnyCalc.answers_of (.inl hre'))).fmono (a := ending) (b := x) (by omega)
  have k4 : re.min ≤ r.min := by rw [k1, k2]; exact k3
  have k5 : min (U64 - 1) (u.min + (v.min - left.min)) ≤ r.min := hreq.trans k4
  omega

/-- C56, `rebal-withdraw-sol`: a planned rebalance of an LST into wrapped SOL executes. -/
theorem C56_rebalWithdrawSol {e : SanctumLst} {amt withdrawn : Nat} {payer : Option Nat}
    (hplan : rebalWithdrawSol J L S auth e amt withdrawn payer withdrawTo = .ok plan)
    (h : Circumstances J L list S t w₀ w withdrawTo e.mint J.wsolMint amt (withdrawn + plan.subsidy))
    (he : Listed list e) (hws : WsolListed J list) (hfits : S.SyncFits L e.mint J.wsolMint) : ∃ w', Tx.run L w₀ t.tx = .ok w' := by
  simp only [rebalWithdrawSol, bind_ok, Prod.exists, pure_ok, okOr_ok, subU64_ok] at hplan
  obtain ⟨_, -, s1, d1, hfr, ini, hini, bef, hbef, _, ⟨rfl, hle⟩, aft, haft, _, ⟨rfl, hle'⟩, _, -, sm, hsm, st, fin, hix, hpl⟩ := hplan
  obtain ⟨p, s, d, n, s', d', n', v, u, hp, hs, hn, hs', hn', hv, hu, hf1, hf2⟩ := hfits
  obtain ⟨rfl, rfl⟩ : s = s1 ∧ d = d1 := by rw [hs] at hfr; injection hfr with hfr; injection hfr with a b; exact ⟨a, b⟩
  obtain rfl : n = ini := by rw [hn] at hini; injection hini
  obtain rfl : v = bef := by rw [hv] at hbef; injection hbef
  obtain ⟨hm, htp⟩ := metas_ok h.fromList h.mirrors.aligned he hs hsm
  obtain ⟨hwc, hwt⟩ := wsol_slot h.fromList h.mirrors.aligned hws hs'
  obtain ⟨a, ha⟩ := h.withdraw
  obtain ⟨lsts, j, hl, hj, hjd, hjm⟩ := SPool.findReady_ok hs'
  have hlw := h.mirrors.lsts _ hl
  subst hlw
  have e1 : plan.start = st := by rw [← hpl]
  have e2 : plan.finish = fin := by rw [← hpl]
  have e3 : plan.subsidy = v.min - aft.min - withdrawn := by rw [← hpl]
  refine rebal_core h.reachable t h.starts h.mirrors h.backed h.active (by rw [e1, e2]; exact hix) h.differ hp hs hs' hn hn' hv hu hf1 hf2
    hm (by rw [hwc]) htp hwt.symm hle ha (h.input j s' hj hjm) h.delivered ?_
  intro _ x r hx hr
  rw [hwc] at hu hr
  refine ⟨aft, haft, ?_⟩
  rw [wsol_value hu, wsol_value hr]
  omega

theorem calcMetas_pos {e : SanctumLst} {ms : List Acc} (h : calcMetas J e = .ok ms) : 1 ≤ ms.length := by
  simp only [calcMetas, bind_ok, okOr_ok, pure_ok] at h
  obtain ⟨k, -, rfl⟩ := h
  obtain ⟨r, hr⟩ := k.ixAccounts_head J
  rw [hr]; simp

theorem checkSubsidy_ok {n : Nat} {payer : Option Nat} (h : checkSubsidy n payer = .ok ()) : n ≤ payer.getD 0 := by
  cases payer with
  | none => simp only [checkSubsidy, require_ok] at h; simp [h]
  | some b => simp only [checkSubsidy, require_ok] at h; exact h

theorem rebalIxs_signer {p : PoolState} (hp : S.pool = .ok p) {src dst : MintAcc} {amount : Nat} {sm dm : List Acc} {start finish : TopIx}
    (h : rebalIxs J S withdrawTo src dst amount sm dm = .ok (start, finish)) (ha : amount < U64) (hl : 1 ≤ sm.length) :
    start.accs.head? = some (sgMeta p.rebalanceAuthority) ∧ finish.accs.head? = some (sgMeta p.rebalanceAuthority) := by
  obtain ⟨p1, lsts, i, j, s1, s1', sr, dr, hp1, -, -, -, -, -, -, -, -, -, -, hsa, hfa⟩ := rebalIxs_ok h ha
  rw [hp] at hp1; cases hp1
  rw [← hsa, ← hfa hl]
  exact ⟨rfl, rfl⟩

/-- C56: the only signer of the controller's two instructions is the authority the command was given, which is the pool's rebalance authority, and
the subsidy is within what its payer holds. -/
theorem C56_authority {amt quoted : Nat} (hamt : amt < U64) {a b : SanctumLst} {payer : Option Nat}
    (hplan : rebalSol J L S auth a amt quoted payer withdrawTo = .ok plan ∨ rebalStake J L S auth a b amt quoted payer withdrawTo = .ok plan ∨
      rebalWithdrawSol J L S auth a amt quoted payer withdrawTo = .ok plan) :
    plan.start.accs.head? = some (sgMeta auth) ∧ plan.finish.accs.head? = some (sgMeta auth) ∧ plan.subsidy ≤ payer.getD 0 := by
  rcases hplan with h | h | h
  · simp only [rebalSol, bind_ok, Prod.exists, pure_ok] at h
    obtain ⟨_, h0, _, _, -, _, -, _, h1, dm, -, st, fin, hix, rfl⟩ := h
    obtain ⟨p, hp, rfl⟩ := checkRebalAuth_ok h0
    obtain ⟨k1, k2⟩ := rebalIxs_signer hp hix hamt (Nat.le_refl 1)
    exact ⟨k1, k2, checkSubsidy_ok h1⟩
  · simp only [rebalStake, bind_ok, Prod.exists, pure_ok] at h
    obtain ⟨_, h0, sub, -, _, h1, sm, hsm, dm, -, st, fin, hix, rfl⟩ := h
    obtain ⟨p, hp, rfl⟩ := checkRebalAuth_ok h0
    obtain ⟨k1, k2⟩ := rebalIxs_signer hp hix hamt (calcMetas_pos hsm)
    exact ⟨k1, k2, checkSubsidy_ok h1⟩
  · simp only [rebalWithdrawSol, bind_ok, Prod.exists, pure_ok] at h
    obtain ⟨_, h0, _, _, -, _, -, _, -, _, -, _, -, _, -, _, h1, sm, hsm, st, fin, hix, rfl⟩ := h
    obtain ⟨p, hp, rfl⟩ := checkRebalAuth_ok h0
    obtain ⟨k1, k2⟩ := rebalIxs_signer hp hix hamt (calcMetas_pos hsm)
    exact ⟨k1, k2, checkSubsidy_ok h1⟩

/-- The search of `rebal-stake` stops at once: the first balance it tries is worth enough. -/
theorem C56_stake_search {c : KnownCalc} {epoch y fuel : Nat} {e v : Range} {k : AnyCalc} (hk : c.usable epoch = .ok k) (hu : k.Usable)
    (he : c.solToLst L epoch y = .ok e) (hv : c.lstToSol L epoch e.max = .ok v) : raiseUntil L epoch c y (fuel + 1) e.max = .ok e.max := by
  obtain ⟨c', hc', he'⟩ := KnownCalc.solToLst_ok he
  rw [hk] at hc'; cases hc'
  obtain ⟨c', hc', hv'⟩ := KnownCalc.lstToSol_ok hv
  rw [hk] at hc'; cases hc'
  have h1 := (k.conv hu (AnyCalc.answers_of (.inl hv'))).up y
  have h2 : ¬ v.min < y := by
    rw [(AnyCalc.is L hu).lstToSol hv', (AnyCalc.is L hu).solToLst he']
    simp only [Range.single]
    omega
  simp only [raiseUntil, hv, bind, Except.bind, h2, if_false, pure, Except.pure]
end

/-! ### A concrete case: the example pool's cache; user 40 is the rebalance authority, the other programs' instructions are one transfer. -/

namespace Ex

theorem cache_fromList : (cache (st 7)).FromList jup jupList := by
  intro d hd
  rw [cache_data] at hd
  simp only [List.mem_cons, Option.some.injEq, List.not_mem_nil, or_false] at hd
  rcases hd with rfl | rfl
  · exact ⟨⟨21, 8, .reservePool⟩, by decide, rfl, rfl⟩
  · exact ⟨⟨22, 8, .lido⟩, by decide, rfl, rfl⟩

theorem jupList_wsol : WsolListed jup jupList := ⟨⟨21, 8, .reservePool⟩, by decide, rfl, rfl⟩
theorem jupList_21 : Listed jupList ⟨21, 8, .reservePool⟩ := by unfold Listed; decide
theorem jupList_22 : Listed jupList ⟨22, 8, .lido⟩ := by unfold Listed; decide

theorem syncFits (x y : Pubkey) (h : x = 21 ∧ y = 22 ∨ x = 22 ∧ y = 21) : (cache (st 7)).SyncFits .ex x y := by
  obtain ⟨p, hp⟩ := pool7
  obtain ⟨⟨s, d⟩, hs⟩ := ok_of_isSome (x := (cache (st 7)).findReady 21) (by decide +kernel)
  obtain ⟨⟨s', d'⟩, hs'⟩ := ok_of_isSome (x := (cache (st 7)).findReady 22) (by decide +kernel)
  obtain ⟨h1, rfl⟩ := find_inv find21 hs
  obtain ⟨h2, rfl⟩ := find_inv find22 hs'
  have e1 : KnownCalc.wsol.lstToSol .ex 0 36031 = .ok ⟨36031, 36031⟩ := ok_of_toOption (by decide +kernel)
  have e3 : (KnownCalc.lido (some ⟨0, 2, 3⟩)).lstToSol .ex 0 16016 = .ok ⟨24024, 24024⟩ := ok_of_toOption (by decide +kernel)
  have ht := (total_inv hp).1
  rcases h with ⟨rfl, rfl⟩ | ⟨rfl, rfl⟩
  · refine ⟨p, _, _, _, _, _, _, _, _, hp, hs, rfl, hs', rfl, by rw [cache_epoch]; exact e1, by rw [cache_epoch]; exact e3, ?_, ?_⟩
    · rw [ht, h1]; decide
    · rw [ht, h1, h2]; decide
  · refine ⟨p, _, _, _, _, _, _, _, _, hp, hs', rfl, hs, rfl, by rw [cache_epoch]; exact e3, by rw [cache_epoch]; exact e1, ?_, ?_⟩
    · rw [ht, h2]; decide
    · rw [ht, h1, h2]; decide

/-- The transaction: StartRebalance, a transfer, EndRebalance. -/
def rebalTx (plan : RebalPlan) (h : signersOk cfg plan.start.accs ∧ signersOk cfg plan.finish.accs) (src dst : Pubkey) (n : Nat) : RebalTx cfg plan where
  pre := []
  env := fenv
  accs := plan.start.accs
  mid := [.foreign ⟨77, [], []⟩ (by decide) [.ext (moveTokens src dst n) (moveTokens_ok _ _ _)]]
  env' := fenv
  accs' := plan.finish.accs
  plainPre := by simp
  plainMid := by
    intro x hx
    simp only [List.mem_cons, List.not_mem_nil, or_false] at hx
    subst hx
    intro a ha
    simp only [List.mem_cons, List.not_mem_nil, or_false] at ha
    exact ⟨_, _, ha⟩
  seen := .refl _
  seen' := .refl _
  signers := h.1
  signers' := h.2

def noPlan : RebalPlan := ⟨0, ⟨0, [], []⟩, ⟨0, [], []⟩⟩

/-- 3000 lamports of LST 21 (wrapped SOL) into LST 22, for which a stake pool would mint 1990. -/
def planSol : RebalPlan := (rebalSol jup .ex (cache (st 7)) 6 ⟨22, 8, .lido⟩ 3000 1990 (some 100) 41).toOption.getD noPlan
/-- The same with `rebal-stake`. -/
def planStake : RebalPlan := (rebalStake jup .ex (cache (st 7)) 6 ⟨21, 8, .reservePool⟩ ⟨22, 8, .lido⟩ 3000 1990 (some 100) 41).toOption.getD noPlan
/-- 2000 of LST 22, worth 3000 lamports, into LST 21; the stake pool would pay 2950. -/
def planWithdraw : RebalPlan := (rebalWithdrawSol jup .ex (cache (st 7)) 6 ⟨22, 8, .lido⟩ 2000 2950 (some 100) 42).toOption.getD noPlan


/-- The state before EndRebalance. -/
def RebalTx.between {cfg : Cfg} {plan : RebalPlan} (t : RebalTx cfg plan) (w : World) : R World := do
  let w1 ← t.startStep.run .ex ⟨t.tops, t.pre.length⟩ w
  runSteps .ex t.tops (t.pre.length + 1) w1 t.mid

theorem ids7 : (st 7).ctl.lsts.map (fun s => (s.mint, s.poolReservesBump, s.isInputDisabled)) = [(21, 255, 0), (22, 255, 0)] := by decide +kernel
theorem mints7 : ((st 7).led.mints 21).map Mint.program = some 8 ∧ ((st 7).led.mints 22).map Mint.program = some 8 := by decide +kernel

theorem rebal_delivered {plan : RebalPlan} (t : RebalTx cfg plan) (he : t.env' = fenv) {mint res : Pubkey} {i n n' total sv r quoted : Nat}
    (hi : ∀ (j : Nat) s, (st 7).ctl.lsts[j]? = some s → s.mint = mint → j = i ∧ s.poolReservesBump = 255)
    (hm : ∀ m, (st 7).led.mints mint = some m → m.program = 8) (hres : cfg.ata 1 8 mint 255 = some res)
    (hbal : bal (st 7).led res = n)
    (hw : (RebalTx.between t (st 7)).toOption.map (fun w' => (bal w'.led res, w'.ctl.pool.map (·.totalSolValue), (w'.ctl.lsts[i]?).map (·.solValue))) =
      some (n', some total, some sv)) (hle : n + quoted ≤ n')
    (hr : ∀ d, (cache (st 7)).data[i]? = some (some d) → d.solCalc.lstToSol .ex 0 n' = .ok (Range.single r)) (hfit : total - sv + r < U64) (w' : World)
    (h : t.Reaches .ex (st 7) w') : Delivered jup .ex t.env' (cache (st 7)) mint quoted (st 7) w' := by
  have hw' : RebalTx.between t (st 7) = .ok w' := by
    obtain ⟨w1, h1, h2⟩ := h
    simp only [RebalTx.between, bind_ok]
    exact ⟨w1, h1, h2⟩
  rw [hw'] at hw
  simp only [Except.toOption, Option.map_some, Option.some.injEq, Prod.mk.injEq] at hw
  obtain ⟨hb, hp, hv⟩ := hw
  intro j s d m k p' hs hsm hd hmm hk hp'
  obtain ⟨rfl, hbump⟩ := hi j s hs hsm
  rw [hm m hmm, hbump] at hk
  have hk : cfg.ata 1 8 mint 255 = some k := hk
  rw [hres] at hk
  injection hk with hk
  subst hk
  rw [hb, hbal]
  have hr := hr d hd
  obtain ⟨c, hc, hcr⟩ := KnownCalc.lstToSol_ok hr
  obtain ⟨hu, hserve⟩ := cache_ready.serves j s d c hs hd (by rw [cache_epoch]; exact hc)
  refine ⟨hle, c, _, _, hu, by rw [he]; exact hserve, by rw [cache_epoch]; exact hr, hcr, Nat.le_refl _, ?_⟩
  intro s' hs'
  rw [hp'] at hp
  rw [hs'] at hv
  simp only [Option.map_some, Option.some.injEq] at hp hv
  rw [hp, hv]; exact hfit

theorem entry7 {j : Nat} {s : LstState} (hs : (st 7).ctl.lsts[j]? = some s) :
    (j = 0 ∧ s.mint = 21 ∨ j = 1 ∧ s.mint = 22) ∧ s.poolReservesBump = 255 ∧ s.isInputDisabled = 0 := by
  have h : ((st 7).ctl.lsts.map (fun s => (s.mint, s.poolReservesBump, s.isInputDisabled)))[j]? =
    some (s.mint, s.poolReservesBump, s.isInputDisabled) := by simp [hs]
  rw [ids7] at h
  match j, h with
  | 0, h => injection h with h; injection h with h1 h; injection h with h2 h3; exact ⟨.inl ⟨rfl, h1.symm⟩, h2.symm, h3.symm⟩
  | 1, h => injection h with h; injection h with h1 h; injection h with h2 h3; exact ⟨.inr ⟨rfl, h1.symm⟩, h2.symm, h3.symm⟩
  | j + 2, h => cases h

theorem prog7 {mint : Pubkey} (h : mint = 21 ∨ mint = 22) (m : Mint) (hm : (st 7).led.mints mint = some m) : m.program = 8 := by
  obtain ⟨h1, h2⟩ := mints7
  rcases h with rfl | rfl
  · rw [hm] at h1; injection h1
  · rw [hm] at h2; injection h2

theorem planSol_ok : rebalSol jup .ex (cache (st 7)) 6 ⟨22, 8, .lido⟩ 3000 1990 (some 100) 41 = .ok planSol := by
  obtain ⟨p, hp⟩ := ok_of_isSome (x := rebalSol jup .ex (cache (st 7)) 6 ⟨22, 8, .lido⟩ 3000 1990 (some 100) 41) (by decide +kernel)
  rw [planSol, hp]; rfl
theorem planStake_ok : rebalStake jup .ex (cache (st 7)) 6 ⟨21, 8, .reservePool⟩ ⟨22, 8, .lido⟩ 3000 1990 (some 100) 41 = .ok planStake := by
  obtain ⟨p, hp⟩ := ok_of_isSome (x := rebalStake jup .ex (cache (st 7)) 6 ⟨21, 8, .reservePool⟩ ⟨22, 8, .lido⟩ 3000 1990 (some 100) 41) (by decide +kernel)
  rw [planStake, hp]; rfl
theorem planWithdraw_ok : rebalWithdrawSol jup .ex (cache (st 7)) 6 ⟨22, 8, .lido⟩ 2000 2950 (some 100) 42 = .ok planWithdraw := by
  obtain ⟨p, hp⟩ := ok_of_isSome (x := rebalWithdrawSol jup .ex (cache (st 7)) 6 ⟨22, 8, .lido⟩ 2000 2950 (some 100) 42) (by decide +kernel)
  rw [planWithdraw, hp]; rfl

theorem subsidies : planSol.subsidy = 11 ∧ planStake.subsidy = 11 ∧ planWithdraw.subsidy = 50 := by decide +kernel

def txSol : RebalTx cfg planSol := rebalTx planSol (by decide +kernel) 42 resB 2001
def txStake : RebalTx cfg planStake := rebalTx planStake (by decide +kernel) 42 resB 2001
def txWithdraw : RebalTx cfg planWithdraw := rebalTx planWithdraw (by decide +kernel) 41 resA 3000

theorem enough21 (s : LstState) (d : LstData) (n : Nat) (h : (cache (st 7)).findReady 21 = .ok (s, d)) (hn : d.reserves = some n) : 3000 ≤ n := by
  obtain ⟨-, rfl⟩ := find_inv find21 h
  injection hn with hn; subst hn; decide
theorem enough22 (s : LstState) (d : LstData) (n : Nat) (h : (cache (st 7)).findReady 22 = .ok (s, d)) (hn : d.reserves = some n) : 2000 ≤ n := by
  obtain ⟨-, rfl⟩ := find_inv find22 h
  injection hn with hn; subst hn; decide

theorem circSol : Circumstances jup .ex jupList (cache (st 7)) txSol (st 7) (st 7) 41 21 22 3000 (1990 + planSol.subsidy) where
  reachable := st_reachable 7
  starts := rfl
  mirrors := cache_ready.mirrors
  fromList := cache_fromList
  backed := st_backed 7 (by decide)
  active := st_active
  differ := by decide
  input i s hs _ := (entry7 hs).2.2
  enough := enough21
  withdraw := ⟨_, wallet41⟩
  delivered := by
    rw [subsidies.1]
    refine rebal_delivered (i := 1) (res := resB) (n := 16016) (n' := 18017) (total := 57055) (sv := 24024) (r := 27025) txSol rfl ?_
      (prog7 (.inr rfl)) (by decide +kernel) (by decide +kernel) (by decide +kernel) (by decide) ?_ (by decide)
    · intro j s hs hm
      obtain ⟨⟨rfl, h⟩ | ⟨rfl, h⟩, h2, -⟩ := entry7 hs
      · rw [hm] at h; cases h
      · exact ⟨rfl, h2⟩
    · intro d hd
      rw [cache_data] at hd
      injection hd with hd; injection hd with hd; subst hd
      exact ok_of_toOption (by decide +kernel)

theorem circStake : Circumstances jup .ex jupList (cache (st 7)) txStake (st 7) (st 7) 41 21 22 3000 (1990 + planStake.subsidy) where
  reachable := st_reachable 7
  starts := rfl
  mirrors := cache_ready.mirrors
  fromList := cache_fromList
  backed := st_backed 7 (by decide)
  active := st_active
  differ := by decide
  input i s hs _ := (entry7 hs).2.2
  enough := enough21
  withdraw := ⟨_, wallet41⟩
  delivered := by
    rw [subsidies.2.1]
    refine rebal_delivered (i := 1) (res := resB) (n := 16016) (n' := 18017) (total := 57055) (sv := 24024) (r := 27025) txStake rfl ?_
      (prog7 (.inr rfl)) (by decide +kernel) (by decide +kernel) (by decide +kernel) (by decide) ?_ (by decide)
    · intro j s hs hm
      obtain ⟨⟨rfl, h⟩ | ⟨rfl, h⟩, h2, -⟩ := entry7 hs
      · rw [hm] at h; cases h
      · exact ⟨rfl, h2⟩
    · intro d hd
      rw [cache_data] at hd
      injection hd with hd; injection hd with hd; subst hd
      exact ok_of_toOption (by decide +kernel)

theorem circWithdraw : Circumstances jup .ex jupList (cache (st 7)) txWithdraw (st 7) (st 7) 42 22 21 2000 (2950 + planWithdraw.subsidy) where
  reachable := st_reachable 7
  starts := rfl
  mirrors := cache_ready.mirrors
  fromList := cache_fromList
  backed := st_backed 7 (by decide)
  active := st_active
  differ := by decide
  input i s hs _ := (entry7 hs).2.2
  enough := enough22
  withdraw := ⟨_, wallet42⟩
  delivered := by
    rw [subsidies.2.2]
    refine rebal_delivered (i := 0) (res := resA) (n := 36031) (n' := 39031) (total := 57055) (sv := 36031) (r := 39031) txWithdraw rfl ?_
      (prog7 (.inl rfl)) (by decide +kernel) (by decide +kernel) (by decide +kernel) (by decide) ?_ (by decide)
    · intro j s hs hm
      obtain ⟨⟨rfl, h⟩ | ⟨rfl, h⟩, h2, -⟩ := entry7 hs
      · exact ⟨rfl, h2⟩
      · rw [hm] at h; cases h
    · intro d hd
      rw [cache_data] at hd
      injection hd with hd; injection hd with hd; subst hd
      exact ok_of_toOption (by decide +kernel)

example : ∃ w', Tx.run (cfg := jup.cfg) .ex (st 7) (RebalTx.tx (cfg := jup.cfg) txSol) = .ok w' :=
  C56_rebalSol (J := jup) (t := txSol) planSol_ok circSol jupList_22 jupList_wsol (syncFits 21 22 (.inl ⟨rfl, rfl⟩))
example : ∃ w', Tx.run (cfg := jup.cfg) .ex (st 7) (RebalTx.tx (cfg := jup.cfg) txStake) = .ok w' :=
  C56_rebalStake (J := jup) (t := txStake) planStake_ok circStake jupList_21 jupList_22
example : ∃ w', Tx.run (cfg := jup.cfg) .ex (st 7) (RebalTx.tx (cfg := jup.cfg) txWithdraw) = .ok w' :=
  C56_rebalWithdrawSol (J := jup) (t := txWithdraw) planWithdraw_ok circWithdraw jupList_22 jupList_wsol (syncFits 22 21 (.inr ⟨rfl, rfl⟩))

end Ex

end S
