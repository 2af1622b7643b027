import Verif.Props.Movements
import Verif.Props.Lists
/-
C39: LP tokens are minted and burned only for deposits and withdrawals. (That the pool stays the LP mint's only authority is
`C39_lp_mint_authority` in `Verif.Props.Invariants`.)
-/
set_option autoImplicit false
namespace S

/-- Over any history, with arbitrary foreign programs: if a committed action raises the supply of the pool's LP mint, it is an
AddLiquidity. -/
theorem C39_supply_grows_only_by_deposit {cfg : Cfg} {L : RatioLib} {w₀ : World} (hf : World.Fresh cfg w₀) {h : List (Tx cfg)}
    {e : Event cfg} (he : e ∈ historyEvents L w₀ h) {p : PoolState} (hp : e.pre.ctl.pool = some p)
    (hlt : supplyOf e.pre.led p.lpTokenMint < supplyOf e.post.led p.lpTokenMint) :
    ∃ accs args, e.IsIx accs (.addLiquidity args) := by
  obtain ⟨m, hm, _, _, hma, _⟩ := ((C39_lp_mint_authority cfg L w₀ hf h).2 e he).1 p hp
  have e1 : supplyOf e.pre.led p.lpTokenMint = m.supply := by unfold supplyOf; rw [hm]; rfl
  rcases event_cases he with ⟨_, hx, _⟩ | ⟨env, accs, ix, hx, hs, hpr⟩
  · obtain ⟨m', hm', _⟩ := hx.mint _ _ hm
    have := (hx.mintAuth _ _ _ hm hm' hma).2
    have e2 : supplyOf e.post.led p.lpTokenMint = m'.supply := by unfold supplyOf; rw [hm']; rfl
    omega
  · obtain ⟨ops, ht, ha⟩ := processIx_trace hpr
    have noset : ∀ op ∈ ops, ∀ tp new, op ≠ .setMintAuth p.lpTokenMint tp cfg.poolState new := by
      rintro op ho tp new rfl
      obtain ⟨_, ⟨a, haa, hsg, hk⟩, _⟩ := ha _ ho
      exact (hs a haa hsg).1 hk
    obtain ⟨m', hm', _, _, hmint, _⟩ := TraceE.mint ht hm
    obtain ⟨_, hgrow⟩ := hmint hma noset
    have e2 : supplyOf e.post.led p.lpTokenMint = m'.supply := by unfold supplyOf; rw [hm']; rfl
    obtain ⟨op, ho, d, tp, x, rfl⟩ := hgrow (by omega)
    obtain ⟨_, ⟨args, rfl⟩, _⟩ := ha _ ho
    exact ⟨accs, args, hx⟩

-- In the example the fifth transaction (a deposit) raises the LP supply from 30000 to 60000.
example : supplyOf (Ex.st 4).led 20 = 30000 ∧ supplyOf (Ex.st 5).led 20 = 60000 := by decide +kernel

/-- With called programs that move no tokens: an instruction that changes the supply of any mint is AddLiquidity or
RemoveLiquidity and the mint is the pool's LP mint. AddLiquidity raises the LP supply by exactly the amount by which the
depositor's LP account (account 3) grows; RemoveLiquidity lowers it by exactly the requested amount, which is the amount by which
the redeemer's LP account (account 3, owned by the signer, account 0) shrinks. (The LST deposited or redeemed is supposed to be
another mint than the LP mint, else the movements of both add up on the same accounts: see C06, C07.) -/
theorem C39_supply_exact {cfg : Cfg} {L : RatioLib} {env : Env cfg} {tx : TxInfo} {w w' : World} {accs : List Acc} {ix : Ix}
    (hq : env.Quiet) (hw : w.led.Wf cfg) (h : processIx cfg L env tx w accs ix = .ok w') :
    (∀ m, supplyOf w'.led m ≠ supplyOf w.led m →
      ((∃ a, ix = .addLiquidity a) ∨ ∃ a, ix = .removeLiquidity a) ∧ ∃ p, w.ctl.pool = some p ∧ p.lpTokenMint = m) ∧
    (∀ args p s, ix = .addLiquidity args → w.ctl.pool = some p → w.ctl.lsts[args.lstIndex]? = some s →
      s.mint ≠ p.lpTokenMint → ∃ n acct, n ≠ 0 ∧ accs[3]? = some acct ∧
        supplyOf w'.led p.lpTokenMint = supplyOf w.led p.lpTokenMint + n ∧
        bal w'.led acct.key = bal w.led acct.key + n) ∧
    (∀ args p s, ix = .removeLiquidity args → w.ctl.pool = some p → w.ctl.lsts[args.lstIndex]? = some s →
      s.mint ≠ p.lpTokenMint → ∃ signer acct a, accs[0]? = some signer ∧ signer.signer = true ∧ accs[3]? = some acct ∧
        w.led.tok acct.key = some a ∧ a.owner = signer.key ∧
        supplyOf w'.led p.lpTokenMint + args.lpTokenAmount = supplyOf w.led p.lpTokenMint ∧
        bal w'.led acct.key + args.lpTokenAmount = bal w.led acct.key) := by
  refine ⟨(C44_conserved hq h).2.1, ?_, ?_⟩
  · rintro args p s rfl hp hs hne
    obtain ⟨p', s', signer, userLst, userLp, feeAcc, res, m, r0, v, vAfter, total, toRes, toFee, lp, hl, hm, ⟨ua, hua, _, hum⟩,
      ⟨la, hla, hlm⟩, _, _, _, _, _, _, hlp, _, _, _, _, hb, hmints, _⟩ := C06_addLiquidity hq h
    have := hl.pool; rw [hp] at this; injection this with this; subst this
    have := hl.entry; rw [hs] at this; injection this with this; subst this
    obtain ⟨mt, _, hr, hf⟩ := hl.derived
    have ne : ∀ {k : Pubkey} {a : TokenAcc}, w.led.tok k = some a → a.mint = s.mint → userLp.key ≠ k := by
      rintro k a hk ha rfl
      rw [hla] at hk; injection hk with hk; subst hk
      exact hne (ha.symm.trans hlm)
    have n1 : userLp.key ≠ userLst.key := ne hua hum
    have n2 : userLp.key ≠ res.key := by
      intro e; rw [← e] at hr
      exact ne hla (hw.ata _ _ _ _ _ _ hr hla).1 rfl
    have n3 : userLp.key ≠ feeAcc.key := by
      intro e; rw [← e] at hf
      exact ne hla (hw.ata _ _ _ _ _ _ hf hla).1 rfl
    refine ⟨lp, userLp, hlp, hl.pos3, ?_, ?_⟩
    · unfold supplyOf; rw [hmints, upd_same, hm]; rfl
    · have := hb userLp.key
      rw [only_ne _ n1, only_ne _ n2, only_ne _ n3, only_self] at this
      omega
  · rintro args p s rfl hp hs hne
    obtain ⟨p', s', signer, userLst, userLp, feeAcc, res, m, r0, total, v, vAfter, out, fee, hl, hm, ⟨la, hla, hlo, hlm⟩,
      ⟨ua, hua, hum⟩, _, _, _, _, _, _, _, _, _, _, hb, hle, hmints, _⟩ := C07_removeLiquidity hq h
    have := hl.pool; rw [hp] at this; injection this with this; subst this
    have := hl.entry; rw [hs] at this; injection this with this; subst this
    obtain ⟨mt, _, hr, hf⟩ := hl.derived
    have ne : ∀ {k : Pubkey} {a : TokenAcc}, w.led.tok k = some a → a.mint = s.mint → userLp.key ≠ k := by
      rintro k a hk ha rfl
      rw [hla] at hk; injection hk with hk; subst hk
      exact hne (ha.symm.trans hlm)
    have n1 : userLp.key ≠ userLst.key := ne hua hum
    have n2 : userLp.key ≠ res.key := by
      intro e; rw [← e] at hr
      exact ne hla (hw.ata _ _ _ _ _ _ hr hla).1 rfl
    have n3 : userLp.key ≠ feeAcc.key := by
      intro e; rw [← e] at hf
      exact ne hla (hw.ata _ _ _ _ _ _ hf hla).1 rfl
    refine ⟨signer, userLp, la, hl.pos0, hl.signed, hl.pos3, hla, hlo, ?_, ?_⟩
    · unfold supplyOf; rw [hmints, upd_same, hm]; simp; omega
    · have := hb userLp.key
      rw [only_ne _ n1, only_ne _ n2, only_ne _ n3, only_self] at this
      omega

-- The redemption of the example: 10000 LP tokens of account 43.
example : ((Ex.st 7).ctl.lsts[0]?).map LstState.mint = some 21 ∧ (Ex.st 7).ctl.pool.map PoolState.lpTokenMint = some 20 ∧
    supplyOf (Ex.st 7).led 20 = 60000 ∧ supplyOf (Ex.st 8).led 20 = 50000 ∧
    bal (Ex.st 7).led 43 = 60000 ∧ bal (Ex.st 8).led 43 = 50000 := by decide +kernel

open Classical in
/-- LP tokens (of mint `m`) minted by the deposits among the events. -/
noncomputable def lpMinted {cfg : Cfg} (m : Pubkey) (es : List (Event cfg)) : Nat :=
  ((es.filter fun e => decide (∃ accs args, e.IsIx accs (.addLiquidity args))).map fun e => supplyOf e.post.led m - supplyOf e.pre.led m).sum

theorem lpMinted_cons {cfg : Cfg} {m : Pubkey} {e : Event cfg} {es : List (Event cfg)}
    (h : supplyOf e.pre.led m < supplyOf e.post.led m → ∃ accs args, e.IsIx accs (.addLiquidity args)) :
    supplyOf e.post.led m + lpMinted m es ≤ supplyOf e.pre.led m + lpMinted m (e :: es) := by
  classical
  unfold lpMinted
  by_cases hd : ∃ accs args, e.IsIx accs (.addLiquidity args)
  · rw [List.filter_cons_of_pos (by simpa using hd), List.map_cons, List.sum_cons]; omega
  · rw [List.filter_cons_of_neg (by simpa using hd)]
    have : ¬ supplyOf e.pre.led m < supplyOf e.post.led m := fun hlt => hd (h hlt)
    omega

theorem lpMinted_le_cons {cfg : Cfg} (m : Pubkey) (e : Event cfg) (es : List (Event cfg)) : lpMinted m es ≤ lpMinted m (e :: es) := by
  classical
  unfold lpMinted
  by_cases hd : ∃ accs args, e.IsIx accs (.addLiquidity args)
  · rw [List.filter_cons_of_pos (by simpa using hd), List.map_cons, List.sum_cons]; omega
  · rw [List.filter_cons_of_neg (by simpa using hd)]

/-- C39: every LP token in circulation was minted by some deposit: from a fresh deployment on, whatever happens, the supply never exceeds what the committed
AddLiquidity instructions minted. -/
theorem C39_every_token_minted_by_deposit {cfg : Cfg} {L : RatioLib} {w₀ : World} (hf : World.Fresh cfg w₀) (h : List (Tx cfg)) {p : PoolState}
    (hp : (runHistory L w₀ h).ctl.pool = some p) : supplyOf (runHistory L w₀ h).led p.lpTokenMint ≤ lpMinted p.lpTokenMint (historyEvents L w₀ h) := by
  obtain ⟨hc, _⟩ := historyEvents_chain L w₀ h
  have key : ∀ {w w' : World} {es : List (Event cfg)}, Chain w es w' → (∀ e ∈ es, e ∈ historyEvents L w₀ h) → ∀ {p' : PoolState}, w'.ctl.pool = some p' →
      (w.ctl.pool = none → supplyOf w'.led p'.lpTokenMint ≤ lpMinted p'.lpTokenMint es) ∧
      ∀ q, w.ctl.pool = some q → q.lpTokenMint = p'.lpTokenMint ∧
        supplyOf w'.led p'.lpTokenMint ≤ supplyOf w.led p'.lpTokenMint + lpMinted p'.lpTokenMint es := by
    intro w w' es hch
    induction hch with
    | nil =>
      intro _ p' hp'
      refine ⟨fun hn => (by rw [hn] at hp'; cases hp'), fun q hq => ?_⟩
      rw [hp'] at hq; cases hq
      exact ⟨rfl, Nat.le_add_right _ _⟩
    | @cons w' e es _ ih =>
      intro hall p' hp'
      rw [List.forall_mem_cons] at hall
      obtain ⟨i1, i2⟩ := ih hall.2 hp'
      constructor
      · intro hn
        cases hpost : e.post.ctl.pool with
        | none => exact (i1 hpost).trans (lpMinted_le_cons _ e es)
        | some q =>
          obtain ⟨hq, hle⟩ := i2 q hpost
          rcases event_cases hall.1 with ⟨hx, _⟩ | ⟨env, accs, ix, hx, _, hpr⟩
          · rw [hx, hn] at hpost; cases hpost
          · have hix : ix = .initialize := by
              have := processIx_ctl hpr
              by_contra hne
              obtain ⟨q, _, hq', _⟩ := CtlStep.lpMint this hne
              rw [hn] at hq'; cases hq'
            subst hix
            obtain ⟨lp, m, _, _, _, _, _, hs0, _, _, _, hm', _, _, _, _, _, hctl⟩ := C40_initialize hpr
            rw [hctl] at hpost; cases hpost
            simp only at hq
            have : supplyOf e.post.led p'.lpTokenMint = 0 := by unfold supplyOf; rw [← hq, hm']; exact hs0
            have := lpMinted_le_cons p'.lpTokenMint e es
            omega
      · intro q hq
        obtain ⟨q', hq', hlp, _⟩ := C15_authorities hall.1 hq
        obtain ⟨g1, g2⟩ := i2 q' hq'
        refine ⟨hlp.symm.trans g1, g2.trans (lpMinted_cons fun hlt => ?_)⟩
        rw [← g1, hlp] at hlt
        exact C39_supply_grows_only_by_deposit hf hall.1 hq hlt
  have := key hc (fun _ he => he) hp
  exact this.1 (by rw [hf.ctl]; rfl)

end S
