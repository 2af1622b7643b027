import Verif.Props.CliSync
/-
C72: the `sync` command of the command-line tool.
-/
set_option autoImplicit false
namespace S

/-! ### Specification -/

/-- The accounts a stake pool's calculator reads besides the mint: its state, the stake pool, the stake pool program and the account of its code. -/
def PoolCfg.Reads (pc : PoolCfg) (pool : Pubkey) : List Pubkey := [pc.stateId, pool, pc.poolProgram, pc.poolProgData]

/-- The accounts passed to the calculator after the mint, all read-only: for an LST of the list those its calculator reads, for another LST those given on the
command line, in the order given. -/
def LstArg.Suffix (J : JupCfg) (suffix : List Pubkey) (arg : LstArg) (rest : List Acc) : Prop :=
  ∃ ks : List Pubkey, rest = ks.map (fun k => ⟨k, false, false⟩) ∧ match arg with
    | .unknown _ => ks = suffix
    | .sanctumLst e => match e.pool with
      | .lido => ks = J.lido.Reads J.lidoState
      | .marinade => ks = J.marinade.Reads J.marinadeState
      | .reservePool => ks = []
      | .sPool => False
      | .spl kind p => ks = (J.spl kind).Reads p

/-! ### Proofs -/

theorem metas_suffix {J : JupCfg} {suffix : List Pubkey} {arg : LstArg} {ms : List Acc} (h : arg.metas J suffix = .ok ms) : arg.Suffix J suffix (ms.drop 1) := by
  cases arg with
  | unknown m => injection h with h; subst h; exact ⟨suffix, rfl, rfl⟩
  | sanctumLst e =>
    obtain ⟨em, ep, pool⟩ := e
    simp only [LstArg.metas, calcMetas, bind_ok, okOr_ok, pure_ok] at h
    obtain ⟨c, hc, rfl⟩ := h
    unfold LstArg.Suffix
    cases pool <;> simp only [PoolInfo.calculator, Option.some.injEq, reduceCtorEq] at hc
    all_goals subst hc
    · exact ⟨_, rfl, rfl⟩
    · exact ⟨_, rfl, rfl⟩
    · exact ⟨[], rfl, rfl⟩
    · exact ⟨_, rfl, rfl⟩

theorem suffix_metas {J : JupCfg} {suffix : List Pubkey} {arg : LstArg} {rest : List Acc} (h : arg.Suffix J suffix rest) : ∃ k, arg.metas J suffix = .ok (roMeta k :: rest) := by
  obtain ⟨ks, rfl, h⟩ := h
  cases arg with
  | unknown m => dsimp only at h; subst h; exact ⟨m, rfl⟩
  | sanctumLst e =>
    obtain ⟨em, ep, pool⟩ := e
    cases pool <;> dsimp only at h
    · subst h; exact ⟨_, rfl⟩
    · subst h; exact ⟨_, rfl⟩
    · subst h; exact ⟨_, rfl⟩
    · subst h; exact ⟨_, rfl⟩

section
variable {J : JupCfg} {L : RatioLib} {env : Env J.cfg} {w w' : World} {p : PoolState}

/-- Recording a new value for one entry, as a record of the whole pool. -/
theorem sync_recordAll (hinv : Inv J.cfg w) (hp : w.ctl.pool = some p) {i : Nat} {s : LstState} (hs : w.ctl.lsts[i]? = some s) (v : Nat) :
    ({ w.ctl with pool := some { p with totalSolValue := p.totalSolValue - s.solValue + v }, lsts := w.ctl.lsts.set i { s with solValue := v } } : Ctl) =
      w.ctl.recordAll p (fun _ => v) (fun t => t.mint = s.mint) := by
  have hnil : w.ctl.lsts.map (LstState.mark (fun _ => v) []) = w.ctl.lsts := by
    have : LstState.mark (fun _ => v) [] = id := by funext t; simp [LstState.mark]
    rw [this, List.map_id]
  have hset := set_mark (val := fun _ => v) hinv.ctl.mints hs []
  rw [hnil, List.nil_append] at hset
  have hm : s.mark (fun _ => v) [] = s := by simp [LstState.mark]
  rw [hm] at hset
  have hall := marked_all (w := w) (p := p) (val := fun _ => v) (fun t => t.mint = s.mint) (done := [s.mint])
    (fun t _ => by simp)
  rw [← hall, Ctl.marked, ← hset]
  have hsum := sum_set LstState.solValue w.ctl.lsts i s { s with solValue := v } hs
  have htot := hinv.ctl.total p hp
  have hle := le_sumSol (List.mem_of_getElem? hs)
  simp only [sumSol] at htot hle ⊢
  dsimp only at hsum
  congr 3
  omega

/-- The instruction built by `sync`, in terms of the chain. -/
theorem syncByMint_shape {mint prog : Pubkey} {ms : List Acc} {ix : TopIx}
    (h : syncByMint J.cfg w.ctl.lsts ⟨mint, prog⟩ ms = .ok ix) :
    ∃ i s res, FirstWithMint w.ctl.lsts mint i s ∧ J.cfg.ata J.cfg.poolState prog s.mint s.poolReservesBump = some res ∧ i < 2 ^ 32 ∧
      ix = ⟨J.cfg.programId, SyncKeys.metas ⟨mint, J.cfg.poolState, J.cfg.lstStateList, res⟩ ++ roMeta s.solValueCalculator :: ms.drop 1,
        (Ix.syncSolValue i).encode⟩ := by
  simp only [syncByMint, bind_ok, Prod.exists] at h
  obtain ⟨k, i, c, hr, hix⟩ := h
  obtain ⟨s, hs, rfl, k1, k2, k3, k4⟩ := resolve_sync_ok hr
  simp only [syncIx, bind_ok, Prod.exists, indexToU32_ok, extendOne_ok, pure_ok] at hix
  obtain ⟨i', ⟨hi, hi'⟩, _, _, ⟨h8, rfl, rfl⟩, rfl⟩ := hix
  subst hi'
  obtain ⟨m1, m2, m3, m4⟩ := k
  dsimp only at k1 k2 k3 k4
  subst k1 k2 k3
  exact ⟨_, s, m4, hs, k4, hi, rfl⟩

/-- A transaction with that one instruction. -/
theorem sync_run_inv (hinv : Inv J.cfg w) {mint prog : Pubkey} {ms : List Acc} {ix : TopIx}
    (h : syncByMint J.cfg w.ctl.lsts ⟨mint, prog⟩ ms = .ok ix)
    (hrun : Tx.run L w [(Step.controller ⟨env, ix.accs, ix.data⟩ : Step J.cfg)] = .ok w') :
    ∃ (i : Nat) (s : LstState) (p : PoolState) (m : Mint) (res : Pubkey) (acc : TokenAcc) (r : Range),
      w.ctl.lsts[i]? = some s ∧ s.mint = mint ∧ w.ctl.pool = some p ∧ p.isDisabled = 0 ∧ p.isRebalancing = 0 ∧
      w.led.mints mint = some m ∧ J.cfg.ata J.cfg.poolState m.program mint s.poolReservesBump = some res ∧ w.led.tok res = some acc ∧
      env.askCalc 0 w s.solValueCalculator (roMeta mint :: ms.drop 1) (.lstToSol acc.amount) = .ok (r, w'.led) ∧
      w'.ctl = w.ctl.recordAll p (fun _ => r.min) (fun t => t.mint = mint) := by
  obtain ⟨i, s, res, hf, -, hi, rfl⟩ := syncByMint_shape h
  simp only [Tx.run, runSteps, Step.run, Call.run, bind_ok, require_ok, exists_const] at hrun
  obtain ⟨w1, ⟨-, hrun⟩, hw⟩ := hrun
  cases hw
  have hw : (Ix.syncSolValue i).Wf := hi
  rw [processInstruction_of_decode _ _ _ _ _ (C38_roundtrip _ hw)] at hrun
  obtain ⟨run⟩ := processSync_inv (show processSync J.cfg env w _ i = .ok w' from hrun)
  obtain ⟨a, suf, c, p, t, tp, acc, r, hload, hsel, hpool, hreb, hdis, hcpi, hcs, hr⟩ := run
  simp only [SyncKeys.metas, List.cons_append, List.nil_append, SyncAccs.load, Except.ok.injEq, Prod.mk.injEq] at hload
  obtain ⟨rfl, rfl⟩ := hload
  obtain ⟨hget, hmint, ⟨m, hm, htp⟩, hres⟩ := hsel
  have ht : t = s := by have := hf.get; rw [hget] at this; injection this
  subst ht
  simp only [verifyCalcCpi_ok] at hcpi
  obtain ⟨y, rest, s', hy, rfl, hs', hprog⟩ := hcpi
  injection hy with h1 h2
  subst h1 h2
  obtain ⟨htok, hask, -, -, hsync⟩ := hr
  obtain ⟨p', s1, hp', hs1, hle, hlt, heq⟩ := ctlSync_ok.1 hsync
  rw [hpool] at hp'; injection hp' with hp'; subst hp'
  rw [hget] at hs1; injection hs1 with hs1; subst hs1
  refine ⟨i, t, p, m, _, acc, r, hget, hf.mint_eq, hpool, hdis, hreb, hm, ?_, htok, ?_, ?_⟩
  · rw [htp, ← hf.mint_eq]; exact hres
  · exact hask
  · rw [heq, sync_recordAll hinv hpool hget, hf.mint_eq]

theorem recordAll_same (hinv : Inv J.cfg w) (hp : w.ctl.pool = some p) {i : Nat} {s : LstState} (hs : w.ctl.lsts[i]? = some s) {v : Nat}
    (h : (w.ctl.recordAll p (fun _ => v) (fun t => t.mint = s.mint)).pool = some p) :
    w.ctl.recordAll p (fun _ => v) (fun t => t.mint = s.mint) = w.ctl := by
  rw [← sync_recordAll hinv hp hs] at h ⊢
  injection h with h
  have ht := congrArg PoolState.totalSolValue h
  have htot := hinv.ctl.total p hp
  have hle := le_sumSol (List.mem_of_getElem? hs)
  simp only [sumSol] at htot hle ht
  have hv : v = s.solValue := by omega
  subst hv
  have h1 : w.ctl.lsts.set i s = w.ctl.lsts := by
    obtain ⟨hl, rfl⟩ := List.getElem?_eq_some_iff.1 hs
    exact List.set_getElem_self hl
  have h2 : ({ p with totalSolValue := p.totalSolValue - s.solValue + s.solValue } : PoolState) = p := by
    rw [Nat.sub_add_cancel (by omega)]
  have h3 : ({ s with solValue := s.solValue } : LstState) = s := rfl
  rw [h2, h3, h1, ← hp]

/-- C72: if `sync` ends well, forced or not, then the pool was open, the LST it was given is listed, the program recorded for the LST answered a
value for all the tokens in the pool's reserves of the LST, and the LST is now recorded at that value and the total is the sum of the records;
nothing else of the pool has changed. For an LST on the Sanctum list the accounts passed are those of the list, else those given. -/
theorem C72_sync {force : Bool} {arg : LstArg} {suffix : List Pubkey} (hreach : Reachable J.cfg L w)
    (h : syncOne J L env force arg suffix w = .ok w') :
    ∃ (s : LstState) (p : PoolState) (m : Mint) (res : Pubkey) (acc : TokenAcc) (r : Range) (l : Ledger) (rest : List Acc),
      w.ctl.pool = some p ∧ p.isDisabled = 0 ∧ p.isRebalancing = 0 ∧ s ∈ w.ctl.lsts ∧ s.mint = arg.mint ∧
      w.led.mints s.mint = some m ∧ J.cfg.ata J.cfg.poolState m.program s.mint s.poolReservesBump = some res ∧ w.led.tok res = some acc ∧
      arg.Suffix J suffix rest ∧
      env.askCalc 0 w s.solValueCalculator (roMeta s.mint :: rest) (.lstToSol acc.amount) = .ok (r, l) ∧
      w'.ctl = w.ctl.recordAll p (fun _ => r.min) (fun t => t.mint = s.mint) ∧ (w'.led = l ∨ w' = w) := by
  simp only [syncOne, bind_ok, okOr_ok] at h
  obtain ⟨ms, hms, p, hp, m, hm, ix, hix, h⟩ := h
  have key : ∀ w1, Tx.run L w [(Step.controller ⟨env, ix.accs, ix.data⟩ : Step J.cfg)] = .ok w1 → _ := fun w1 => sync_run_inv hreach.inv hix
  cases force with
  | true =>
    obtain ⟨i, s, p', m', res, acc, r, h1, h2, h3, h4, h5, h6, h7, h8, h9, h10⟩ := key w' h
    rw [← h2] at h6 h7 h9 h10
    exact ⟨s, p', m', res, acc, r, _, ms.drop 1, h3, h4, h5, List.mem_of_getElem? h1, h2, h6, h7, h8, metas_suffix hms, h9, h10, .inl rfl⟩
  | false =>
    simp only [Bool.false_eq_true, if_false, bind_ok] at h
    obtain ⟨sim, hsim, h⟩ := h
    obtain ⟨i, s, p', m', res, acc, r, h1, h2, h3, h4, h5, h6, h7, h8, h9, h10⟩ := key sim hsim
    rw [← h2] at h6 h7 h9 h10
    rw [hp] at h3; injection h3 with h3; subst h3
    split at h
    · rename_i hskip
      simp only [pure_ok] at h; subst h
      rw [h10] at hskip
      exact ⟨s, p, m', res, acc, r, _, ms.drop 1, hp, h4, h5, List.mem_of_getElem? h1, h2, h6, h7, h8, metas_suffix hms, h9,
        (recordAll_same hreach.inv hp h1 hskip).symm, .inr rfl⟩
    · rw [hsim] at h; injection h with h; subst h
      exact ⟨s, p, m', res, acc, r, _, ms.drop 1, hp, h4, h5, List.mem_of_getElem? h1, h2, h6, h7, h8, metas_suffix hms, h9, h10, .inl rfl⟩

/-- C72: with and without `--force` the command leaves the same records. (`sync-all` does not: `C57_some` and the examples there.) -/
theorem C72_force {arg : LstArg} {suffix : List Pubkey} (hreach : Reachable J.cfg L w) :
    (∀ w1, syncOne J L env true arg suffix w = .ok w1 → ∃ w2, syncOne J L env false arg suffix w = .ok w2 ∧ w2.ctl = w1.ctl) ∧
    (∀ w2, syncOne J L env false arg suffix w = .ok w2 → ∃ w1, syncOne J L env true arg suffix w = .ok w1 ∧ w1.ctl = w2.ctl) := by
  constructor
  · intro w1 h
    simp only [syncOne, bind_ok, okOr_ok, if_true, Bool.false_eq_true, if_false] at h ⊢
    obtain ⟨ms, hms, p, hp, m, hm, ix, hix, h⟩ := h
    obtain ⟨i, s, p', m', res, acc, r, h1, h2, h3, h4, h5, h6, h7, h8, h9, h10⟩ := sync_run_inv hreach.inv hix h
    rw [hp] at h3; injection h3 with h3; subst h3
    rw [← h2] at h10
    by_cases hs : w1.ctl.pool = some p
    · refine ⟨w, ⟨ms, hms, p, hp, m, hm, ix, hix, w1, h, by simp only [hs, if_true]; rfl⟩, ?_⟩
      rw [h10] at hs ⊢
      exact (recordAll_same hreach.inv hp h1 hs).symm
    · exact ⟨w1, ⟨ms, hms, p, hp, m, hm, ix, hix, w1, h, by simp only [hs, if_false]; exact h⟩, rfl⟩
  · intro w2 h
    simp only [syncOne, bind_ok, okOr_ok, if_true, Bool.false_eq_true, if_false] at h ⊢
    obtain ⟨ms, hms, p, hp, m, hm, ix, hix, sim, hsim, h⟩ := h
    refine ⟨sim, ⟨ms, hms, p, hp, m, hm, ix, hix, hsim⟩, ?_⟩
    obtain ⟨i, s, p', m', res, acc, r, h1, h2, h3, h4, h5, h6, h7, h8, h9, h10⟩ := sync_run_inv hreach.inv hix hsim
    rw [hp] at h3; injection h3 with h3; subst h3
    rw [← h2] at h10
    split at h
    · rename_i hskip
      simp only [pure_ok] at h; subst h
      rw [h10] at hskip ⊢
      exact recordAll_same hreach.inv hp h1 hskip
    · rw [hsim] at h; injection h with h; subst h; rfl

/-- C72: the command does end well, forced or not, for an LST of an open pool whose calculator program values the pool's reserves when called
with the accounts in question, if the new total fits. -/
theorem C72_works {force : Bool} {arg : LstArg} {suffix : List Pubkey} {s : LstState} {m : Mint} {res : Pubkey} {rest : List Acc} {c : AnyCalc}
    {r : Range} (hreach : Reachable J.cfg L w) (hp : w.ctl.pool = some p) (hopen : p.isDisabled = 0 ∧ p.isRebalancing = 0)
    (hlen : w.ctl.lsts.length ≤ 2 ^ 32) (hs : s ∈ w.ctl.lsts) (harg : arg.mint = s.mint) (hm : w.led.mints s.mint = some m)
    (hres : J.cfg.ata J.cfg.poolState m.program s.mint s.poolReservesBump = some res) (hacc : arg.Suffix J suffix rest)
    (hshort : rest.length < 255) (hu : c.Usable)
    (hserve : env.Serves L ⟨s.solValueCalculator, roMeta s.mint :: rest⟩ c) (hr : (c.calculator L).lstToSol (bal w.led res) = .ok r)
    (hfit : p.totalSolValue - s.solValue + r.min < U64) :
    syncOne J L env force arg suffix w = .ok ⟨w.ctl.recordAll p (fun _ => r.min) (fun t => t.mint = s.mint), w.led⟩ := by
  have hinv := hreach.inv
  obtain ⟨k, hms⟩ := suffix_metas hacc
  have hsuf : rest.length < 255 ∧ ∀ a ∈ rest, a.signer = false := by
    refine ⟨hshort, fun a ha => ?_⟩
    obtain ⟨ks, rfl, _⟩ := hacc
    obtain ⟨_, _, rfl⟩ := List.mem_map.1 ha
    rfl
  obtain ⟨i, hi⟩ := List.mem_iff_getElem?.1 hs
  have hfind : findLst s.mint w.ctl.lsts = .ok (i, s) := by
    refine findLst_ok.2 ⟨hi, rfl, ?_⟩
    intro n t hn ht hmt
    have h1 : (w.ctl.lsts.map LstState.mint)[n]? = (w.ctl.lsts.map LstState.mint)[i]? := by simp [ht, hi, hmt]
    have := (List.getElem?_inj (by simpa using (List.getElem?_eq_some_iff.1 ht).1) hinv.ctl.mints).1 h1
    omega
  have hlt := (List.getElem?_eq_some_iff.1 hi).1
  have hix : syncByMint J.cfg w.ctl.lsts ⟨s.mint, m.program⟩ (roMeta k :: rest) =
      .ok ⟨J.cfg.programId, SyncKeys.metas ⟨s.mint, J.cfg.poolState, J.cfg.lstStateList, res⟩ ++
        roMeta s.solValueCalculator :: (roMeta k :: rest).drop 1, (Ix.syncSolValue i).encode⟩ := by
    simp only [syncByMint, resolveSync, syncIx, bind_ok, Prod.exists, poolReserves_ok, pure_ok, Prod.mk.injEq, indexToU32_ok, extendOne_ok]
    exact ⟨_, i, _, ⟨i, s, hfind, res, hres, rfl, rfl, rfl⟩, i, ⟨by omega, rfl⟩, _, _,
      ⟨by simp only [List.length_cons]; omega, rfl, rfl⟩, rfl⟩
  generalize hixe : (⟨J.cfg.programId, _, _⟩ : TopIx) = ix at hix
  have hsig : signersOk J.cfg ix.accs := by
    rw [← hixe]
    intro a ha hsg
    simp only [List.mem_append, List.mem_cons, List.drop_succ_cons, List.drop_zero, SyncKeys.metas] at ha
    have : a.signer = false := by
      rcases ha with (rfl | rfl | rfl | rfl | h) | rfl | h
      · rfl
      · rfl
      · rfl
      · rfl
      · cases h
      · rfl
      · exact hsuf.2 a h
    rw [hsg] at this; cases this
  have hprog : ix.program = J.cfg.programId := by rw [← hixe]
  obtain ⟨m', rk, ak, ra, fa, la⟩ := hinv.accs s hs
  have em : m' = m := by have := la.mint; rw [hm] at this; injection this with this; exact this.symm
  subst em
  have er : rk = res := by have := la.res_key; rw [hres] at this; injection this with this; exact this.symm
  subst er
  have hbal : bal w.led rk = ra.amount := by rw [bal, la.res]; rfl
  rw [hbal] at hr
  obtain ⟨hr1, hr2⟩ := AnyCalc.lstToSol_u64 hu (hinv.wf.tok_u64 _ _ la.res) hr
  have hle : s.solValue ≤ p.totalSolValue := by
    have := le_sumSol hs
    have htot := hinv.ctl.total p hp
    omega
  have hrun : Tx.run L w [(Step.controller ⟨env, ix.accs, ix.data⟩ : Step J.cfg)] =
      .ok ⟨w.ctl.recordAll p (fun _ => r.min) (fun t => t.mint = s.mint), w.led⟩ := by
    obtain ⟨j, t, res', hfirst, hres', seen, hseen, hlive⟩ := C43_sync (L := L) (env := env) (tx := ⟨[(Step.controller ⟨env, ix.accs, ix.data⟩ : Step J.cfg).top], 0⟩)
      (w := w) (p := p) (rest := rest) rfl hix (SeenAs.refl _) ⟨hp, hopen.2, hopen.1⟩ ⟨m', hm, rfl⟩
    have hj : j = i ∧ t = s := by
      have h1 : (w.ctl.lsts.map LstState.mint)[j]? = (w.ctl.lsts.map LstState.mint)[i]? := by simp [hfirst.get, hi, hfirst.mint_eq]
      have h2 := (List.getElem?_inj (by simpa using (List.getElem?_eq_some_iff.1 hfirst.get).1) hinv.ctl.mints).1 h1
      subst h2
      refine ⟨rfl, ?_⟩
      have := hfirst.get; rw [hi] at this; injection this with this; exact this.symm
    obtain ⟨rfl, rfl⟩ := hj
    dsimp only at hres'
    rw [hres] at hres'; injection hres' with hres'; subst hres'
    have h := hlive ra r w.led la.res ((hserve 0 w seen hseen).1 _ _ hr) hr1 hr2 hle hfit
    rw [sync_recordAll hinv hp hi] at h
    simp only [Tx.run, runSteps, Step.run, Call.run, bind_ok, require_ok, exists_const, List.map_cons, List.map_nil]
    exact ⟨_, ⟨hsig, by rw [← hprog]; exact h⟩, rfl⟩
  have hforce : syncOne J L env true arg suffix w = .ok ⟨w.ctl.recordAll p (fun _ => r.min) (fun t => t.mint = s.mint), w.led⟩ := by
    simp only [syncOne, bind_ok, okOr_ok, if_true]
    exact ⟨_, hms, p, hp, m', by rw [harg]; exact hm, ix, by rw [harg]; exact hix, hrun⟩
  cases force with
  | true => exact hforce
  | false =>
    simp only [syncOne, bind_ok, okOr_ok, Bool.false_eq_true, if_false]
    refine ⟨_, hms, p, hp, m', by rw [harg]; exact hm, ix, by rw [harg]; exact hix, _, hrun, ?_⟩
    split
    · rename_i hskip
      rw [recordAll_same hinv hp hi hskip]
      rfl
    · exact hrun

/-- C72: what the argument names. A mint names itself, whether or not it is on the list; a symbol names an LST of the list with that symbol, and is
refused if there is none. -/
theorem C72_argument (symbol : SanctumLst → String) (list : List SanctumLst) :
    (∀ k, ∃ a, LstArg.parse symbol list (.inl k) = .ok a ∧ a.mint = k ∧ (∀ e, a = .sanctumLst e → e ∈ list) ∧ (a = .unknown k → ∀ e ∈ list, e.mint ≠ k)) ∧
    (∀ y a, LstArg.parse symbol list (.inr y) = .ok a → ∃ e ∈ list, symbol e = y ∧ a = .sanctumLst e) ∧
    (∀ y, (∀ e ∈ list, symbol e ≠ y) → ∃ x, LstArg.parse symbol list (.inr y) = .error x) := by
  refine ⟨fun k => ?_, fun y a h => ?_, fun y h => ?_⟩
  · simp only [LstArg.parse, Except.ok.injEq, exists_eq_left']
    cases hf : list.find? fun e => e.mint = k with
    | none =>
      refine ⟨rfl, fun e h => (by cases h), fun _ e he hk => ?_⟩
      have := List.find?_eq_none.1 hf e he
      simp [hk] at this
    | some e =>
      refine ⟨by simpa [LstArg.mint] using List.find?_some hf, fun e' h => ?_, fun h => (by cases h)⟩
      injection h with h; subst h
      exact List.mem_of_find?_eq_some hf
  · simp only [LstArg.parse, bind_ok, okOr_ok, pure_ok] at h
    obtain ⟨e, he, rfl⟩ := h
    exact ⟨e, List.mem_of_find?_eq_some he, by simpa using List.find?_some he, rfl⟩
  · have : list.find? (fun e => decide (symbol e = y)) = none := by
      rw [List.find?_eq_none]; intro e he; simpa using h e he
    simp only [LstArg.parse, this, okOr, bind, Except.bind]
    exact ⟨_, rfl⟩

end

/-! ### Concretely: the pool of `Ex.stale`, whose two records are out of date; and an LST that the list does not have. -/
namespace Ex

theorem stale_one : ∃ (p : PoolState) (s : LstState) (m : Mint), stale.ctl.pool = some p ∧ p.isDisabled = 0 ∧ p.isRebalancing = 0 ∧
    stale.ctl.lsts.length ≤ 2 ^ 32 ∧ s ∈ stale.ctl.lsts ∧ s.mint = 21 ∧ s.solValueCalculator = 31 ∧ stale.led.mints s.mint = some m ∧
    cfg.ata cfg.poolState m.program s.mint s.poolReservesBump = some resA ∧ bal stale.led resA = 41031 ∧ p.totalSolValue - s.solValue + 41031 < U64 := by
  obtain ⟨p, hp, hf⟩ := Option.map_eq_some_iff.1 stale_pool
  injection hf with hd hr
  have hl : stale.ctl.lsts.length ≤ 2 ^ 32 := by
    have := congrArg List.length stale_lsts
    rw [List.length_map] at this
    rw [this]; decide
  obtain ⟨s, hs, he⟩ := List.mem_map.1 (show (21, 31, 255, 36031) ∈ stale.ctl.lsts.map (fun s => (s.mint, s.solValueCalculator, s.poolReservesBump, s.solValue)) by
    rw [stale_lsts]; exact List.mem_cons_self ..)
  simp only [Prod.mk.injEq] at he
  obtain ⟨h1, h2, h3, h4⟩ := he
  obtain ⟨m, hm, hmp⟩ := Option.map_eq_some_iff.1 stale_progs.1
  have ht : stale.ctl.pool.map PoolState.totalSolValue = some 60055 := by decide +kernel
  rw [hp] at ht; injection ht with ht
  refine ⟨p, s, m, hp, hd, hr, hl, hs, h1, h2, by rw [h1]; exact hm, by rw [h1, h3, hmp]; exact stale_ata.1, stale_bal.1, ?_⟩
  rw [ht, h4]; decide

/-- LST 21 through the list, and as an LST the list does not have (with no further accounts): `C72_works` applies to both. -/
example (force : Bool) (arg : LstArg) (h : arg = .sanctumLst ⟨21, 8, .reservePool⟩ ∨ arg = .unknown 21) : ∃ p, stale.ctl.pool = some p ∧
    syncOne jup .ex fenv force arg [] stale = .ok ⟨stale.ctl.recordAll p (fun _ => 41031) (fun t => t.mint = 21), stale.led⟩ := by
  obtain ⟨p, s, m, hp, hd, hr, hl, hs, h1, h2, hm, hres, hb, hfit⟩ := stale_one
  refine ⟨p, hp, ?_⟩
  rw [← h1]
  refine C72_works (J := jup) (c := .wsol) (r := ⟨41031, 41031⟩) (rest := []) (res := resA) stale_reachable hp ⟨hd, hr⟩ hl hs ?_ hm hres ?_ (by decide) trivial ?_ ?_ hfit
  · rcases h with rfl | rfl <;> exact h1.symm
  · rcases h with rfl | rfl <;> exact ⟨[], rfl, rfl⟩
  · rw [h2]
    exact fun n w ms _ => ⟨fun a r h => Env.pure_calc.2 ⟨h, rfl⟩, fun a r h => Env.pure_calc.2 ⟨h, rfl⟩⟩
  · rw [hb]; rfl

example : Ex.values (syncOne jup .ex fenv false (.sanctumLst ⟨22, 8, .lido⟩) [] stale) = some (61105, [36031, 25074]) := by decide +kernel
example : Ex.values (syncOne jup .ex slashed false (.sanctumLst ⟨22, 8, .lido⟩) [] stale) = some (55055, [36031, 19024]) := by decide +kernel
/-- A second `sync` is skipped, and changes nothing when forced. -/
example : (syncOne jup .ex fenv false (.unknown 21) [] stale >>= syncOne jup .ex fenv false (.unknown 21) []).toOption.map (fun w => w.ctl) =
    (syncOne jup .ex fenv true (.unknown 21) [] stale).toOption.map (fun w => w.ctl) := by decide +kernel
/-- An LST the pool does not have is refused. -/
example : (syncOne jup .ex fenv true (.unknown 23) [] stale).toOption.isNone := by decide +kernel
example : LstArg.parse (fun e => if e.mint = 22 then "stSOL" else "SOL") jupList (.inr "stSOL") = .ok (.sanctumLst ⟨22, 8, .lido⟩) :=
  ok_of_toOption (by decide +kernel)

end Ex
end S
