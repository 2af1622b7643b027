import Verif.Props.Rates
/-
C22: syncing is exact, idempotent and order-independent. C41: syncing and valuing LP tokens cannot be blocked by arithmetic.
-/
set_option autoImplicit false
namespace S

/-- A well-formed request to sync entry `i` in state `w`: `accs` are the LST's mint, the pool state and list accounts (writable), the
pool's reserves of the LST, the LST's calculator program, then `extra` for the calculator. `p` and `s` are the pool's and
the entry's records and `held` the reserves' balance. -/
structure SyncRequest (cfg : Cfg) (w : World) (accs : List Acc) (i : Nat) (p : PoolState) (s : LstState) (held : Nat)
    (extra : List Acc) : Prop where
  entry : w.ctl.lsts[i]? = some s
  pool : w.ctl.pool = some p
  active : p.isRebalancing = 0 ∧ p.isDisabled = 0
  accounts : ∃ mint pool list reserves program, accs = mint :: pool :: list :: reserves :: program :: extra ∧ mint.key = s.mint ∧
    pool.key = cfg.poolState ∧ pool.writable = true ∧ list.key = cfg.lstStateList ∧ list.writable = true ∧
    program.key = s.solValueCalculator ∧
    (∃ m, w.led.mints s.mint = some m ∧ cfg.ata cfg.poolState m.program s.mint s.poolReservesBump = some reserves.key) ∧
    (∃ acc, w.led.tok reserves.key = some acc ∧ acc.amount = held)

/-- The pool after recording value `v` for entry `i`. -/
def Ctl.record (c : Ctl) (i : Nat) (p : PoolState) (s : LstState) (v : Nat) : Ctl :=
  { c with pool := some { p with totalSolValue := p.totalSolValue - s.solValue + v }, lsts := c.lsts.set i { s with solValue := v } }

/-- SyncSolValue succeeds exactly on a well-formed request whose calculator answers and whose new total fits; it records the
minimum of the calculator's answer for the reserves' balance. -/
theorem sync_iff {cfg : Cfg} {L : RatioLib} {env : Env cfg} {tx : TxInfo} {w w' : World} {accs : List Acc} {i : Nat} :
    processIx cfg L env tx w accs (.syncSolValue i) = .ok w' ↔
    ∃ p s held extra r, SyncRequest cfg w accs i p s held extra ∧
      env.askCalc 0 w s.solValueCalculator (⟨s.mint, false, false⟩ :: extra) (.lstToSol held) = .ok (r, w'.led) ∧
      r.min < U64 ∧ r.max < U64 ∧ s.solValue ≤ p.totalSolValue ∧ p.totalSolValue - s.solValue + r.min < U64 ∧
      w'.ctl = w.ctl.record i p s r.min := by
  show processSync cfg env w accs i = .ok w' ↔ _
  constructor
  · intro h
    simp only [processSync, verifySync, bind_ok, Prod.exists, require_ok, exists_const, checkKeys_ok, checkWritable_ok,
      matchLst_ok, mintProgram_ok, poolReserves_ok, getPool_ok, verifyActive_ok, List.forall_mem_cons,
      syncUnchecked_ok, verifyCalcCpi_ok] at h
    obtain ⟨a, suffix, hl, c, ⟨h0, s, ⟨hs, hm⟩, tp, ⟨m, hmm, hmp⟩, res, hres, ⟨_, hk1, hk2, hk3, _⟩, ⟨hw1, hw2, _⟩, p, hp, hact, x, extra, s', rfl, rfl, hs', hx⟩,
      acc, r, hr⟩ := h
    rw [hs] at hs'; injection hs' with hs'; subst hs'
    obtain ⟨p', s', hf⟩ := ctlSync_ok.1 hr.sync
    have e1 := hf.pool; rw [hp] at e1; injection e1 with e1; subst e1
    have e2 := hf.lst; rw [hs] at e2; injection e2 with e2; subst e2
    refine ⟨p, s, acc.amount, extra, r, ⟨hs, hp, hact, ?_⟩, ?_, hr.rmin, hr.rmax, hf.le, hf.fits, hf.eq⟩
    · unfold SyncAccs.load at hl
      split at hl
      · rename_i ma po li re rest
        simp only [Except.ok.injEq, Prod.mk.injEq] at hl
        obtain ⟨rfl, rfl⟩ := hl
        exact ⟨ma, po, li, re, x, rfl, hm.symm, hk1, hw1, h0, hw2, hx, ⟨m, by rw [hm]; exact hmm, by rw [hmp, hk3]; exact hres⟩,
          acc, hr.tok, rfl⟩
      · cases hl
    · have := hr.ask
      rw [← hx, hm]
      exact this
  · rintro ⟨p, s, held, extra, r, ⟨hs, hp, hact, ma, po, li, re, x, rfl, hm, hk1, hw1, h0, hw2, hx, ⟨m, hmm, hres⟩, acc, hacc, rfl⟩,
      hask, h1, h2, h3, h4, h5⟩
    simp only [processSync, verifySync, bind_ok, Prod.exists, require_ok, exists_const, checkKeys_ok, checkWritable_ok,
      matchLst_ok, mintProgram_ok, poolReserves_ok, getPool_ok, verifyActive_ok, List.forall_mem_cons,
      syncUnchecked_ok, verifyCalcCpi_ok]
    refine ⟨⟨ma, po, li, re⟩, x :: extra, rfl, ⟨x.key, ma.key, extra⟩, ⟨h0, s, ⟨hs, hm.symm⟩, _, ⟨m, by rw [hm]; exact hmm, rfl⟩, _, hres,
      ⟨hm, hk1, h0, rfl, by simp⟩, ⟨hw1, hw2, by simp⟩, p, hp, hact, x, extra, s, rfl, rfl, hs, hx⟩, acc, r, hacc, ?_, h1, h2, ?_⟩
    · show env.askCalc 0 w x.key (⟨ma.key, false, false⟩ :: extra) _ = _
      rw [hx, hm]; exact hask
    · exact ctlSync_ok.2 ⟨p, s, hp, hs, h3, h4, h5⟩

/-- Each recorded value is at most the sum. -/
theorem value_le_sum {ls : List LstState} {i : Nat} {s : LstState} (h : ls[i]? = some s) : s.solValue ≤ sumSol ls := by
  have := sum_set LstState.solValue ls i s { s with solValue := 0 } h
  simp only at this
  show s.solValue ≤ (ls.map LstState.solValue).sum
  omega

/-- C22, exact: after SyncSolValue of entry `i`, the entry's value is the minimum of what its calculator answers for the tokens the
reserves hold, all else about the entry and all other entries are as before, and the pool's total is the sum of the values,
with nothing else in the pool's record changed. -/
theorem C22_exact {cfg : Cfg} {L : RatioLib} {env : Env cfg} {tx : TxInfo} {w w' : World} {accs : List Acc} {i : Nat}
    (hr : Reachable cfg L w) (h : processIx cfg L env tx w accs (.syncSolValue i) = .ok w') :
    ∃ p p' s held extra r, SyncRequest cfg w accs i p s held extra ∧
      env.askCalc 0 w s.solValueCalculator (⟨s.mint, false, false⟩ :: extra) (.lstToSol held) = .ok (r, w'.led) ∧
      w'.ctl.lsts[i]? = some { s with solValue := r.min } ∧
      (∀ j, j ≠ i → w'.ctl.lsts[j]? = w.ctl.lsts[j]?) ∧
      w'.ctl.pool = some p' ∧ p' = { p with totalSolValue := p'.totalSolValue } ∧
      p'.totalSolValue = (w'.ctl.lsts.map LstState.solValue).sum ∧
      w'.ctl.auths = w.ctl.auths ∧ w'.ctl.rebal = w.ctl.rebal := by
  obtain ⟨p, s, held, extra, r, hq, ha, h1, h2, h3, h4, h5⟩ := sync_iff.1 h
  have hI := hr.inv.ix h
  have hp' : w'.ctl.pool = some { p with totalSolValue := p.totalSolValue - s.solValue + r.min } := by rw [h5]; rfl
  have hi : i < w.ctl.lsts.length := by
    have := hq.entry
    rw [List.getElem?_eq_some_iff] at this
    exact this.1
  refine ⟨p, _, s, held, extra, r, hq, ha, ?_, ?_, hp', rfl, hI.ctl.total _ hp', ?_, ?_⟩
  · rw [h5]; exact List.getElem?_set_self hi
  · intro j hj; rw [h5]; exact List.getElem?_set_ne (Ne.symm hj)
  · rw [h5]; rfl
  · rw [h5]; rfl

theorem SyncRequest.unique {cfg : Cfg} {w : World} {accs : List Acc} {i : Nat} {p p' : PoolState} {s s' : LstState} {held held' : Nat}
    {extra extra' : List Acc} (hq : SyncRequest cfg w accs i p s held extra) (hq' : SyncRequest cfg w accs i p' s' held' extra') :
    p = p' ∧ s = s' ∧ held = held' ∧ extra = extra' := by
  have e1 := hq'.pool; rw [hq.pool] at e1; injection e1 with e1; subst e1
  have e2 := hq'.entry; rw [hq.entry] at e2; injection e2 with e2; subst e2
  obtain ⟨ma, po, li, re, x, he, _, _, _, _, _, _, _, acc, hacc, hheld⟩ := hq.accounts
  obtain ⟨ma', po', li', re', x', he', _, _, _, _, _, _, _, acc', hacc', hheld'⟩ := hq'.accounts
  rw [he] at he'
  simp only [List.cons.injEq] at he'
  obtain ⟨_, _, _, hre, _, hex⟩ := he'
  subst hex; subst hre
  rw [hacc] at hacc'; injection hacc' with hacc'; subst hacc'
  rw [hheld] at hheld'; subst hheld'
  exact ⟨rfl, rfl, rfl, rfl⟩

/-- C41, syncing: on a well-formed request in a reachable state, once the calculator answers in 64 bits, SyncSolValue fails only
if the new total (the old total with the entry's old value replaced) exceeds 64 bits. -/
theorem C41_sync {cfg : Cfg} {L : RatioLib} {env : Env cfg} {tx : TxInfo} {w : World} {accs : List Acc} {i : Nat} {p : PoolState}
    {s : LstState} {held : Nat} {extra : List Acc} {r : Range} {l : Ledger} (hr : Reachable cfg L w)
    (hq : SyncRequest cfg w accs i p s held extra)
    (ha : env.askCalc 0 w s.solValueCalculator (⟨s.mint, false, false⟩ :: extra) (.lstToSol held) = .ok (r, l))
    (h1 : r.min < U64) (h2 : r.max < U64) :
    (∃ w', processIx cfg L env tx w accs (.syncSolValue i) = .ok w') ↔
      ((w.ctl.lsts.set i { s with solValue := r.min }).map LstState.solValue).sum < U64 := by
  have ht := hr.inv.ctl.total p hq.pool
  have hsum := sum_set LstState.solValue w.ctl.lsts i s { s with solValue := r.min } hq.entry
  have hsum' : (w.ctl.lsts.map LstState.solValue).sum = sumSol w.ctl.lsts := rfl
  simp only at hsum
  have hle : s.solValue ≤ p.totalSolValue := by
    exact ht ▸ value_le_sum hq.entry
  constructor
  · rintro ⟨w', h⟩
    obtain ⟨p', s', held', extra', r', hq', ha', _, _, h3, h4, h5⟩ := sync_iff.1 h
    obtain ⟨rfl, rfl, rfl, rfl⟩ := hq.unique hq'
    rw [ha] at ha'
    injection ha' with ha'; injection ha' with ha' _
    subst ha'
    omega
  · intro hlt
    refine ⟨⟨w.ctl.record i p s r.min, l⟩, sync_iff.2 ⟨p, s, held, extra, r, hq, ha, h1, h2, hle, ?_, rfl⟩⟩
    omega

/-- C41, redeeming: in every reachable state the value of any LP amount up to the supply can be computed; it is at most the pool's
total value. -/
theorem C41_lp_value {cfg : Cfg} {L : RatioLib} {w : World} {p : PoolState} {supply amount : Nat} (hr : Reachable cfg L w)
    (hp : w.ctl.pool = some p) (ha : amount ≤ supply) :
    ∃ v, calcLpTokensSolValue L ⟨supply, p.totalSolValue⟩ amount = .ok v ∧ v ≤ p.totalSolValue := by
  have hu := hr.inv.ctl.total_u64 p hp
  unfold calcLpTokensSolValue
  simp only
  split
  · exact ⟨0, rfl, Nat.zero_le _⟩
  · rename_i h
    have hs : 0 < supply := by omega
    have hle : amount * p.totalSolValue / supply ≤ p.totalSolValue := by
      apply Nat.div_le_of_le_mul
      exact Nat.mul_le_mul_right _ ha
    refine ⟨_, ?_, hle⟩
    unfold floorApply
    rw [if_neg (by omega)]
    exact toU64_ok.2 ⟨rfl, by omega⟩

section
variable {cfg : Cfg} {L : RatioLib} {calcF : Pubkey → List Acc → CalcReq → R Range} {priceF : Pubkey → List Acc → PriceReq → R Nat}

/-- A request stays well-formed when some entry's value is recorded. -/
theorem SyncRequest.recorded {w w' : World} {accs : List Acc} {i : Nat} {p : PoolState} {s : LstState} {held : Nat} {extra : List Acc}
    (hq : SyncRequest cfg w accs i p s held extra) {j : Nat} {s₁ : LstState} {v : Nat}
    (hj : w.ctl.lsts[j]? = some s₁) (hc : w'.ctl = w.ctl.record j p s₁ v) (hl : w'.led = w.led) :
    SyncRequest cfg w' accs i { p with totalSolValue := p.totalSolValue - s₁.solValue + v }
      { s with solValue := if j = i then v else s.solValue } held extra where
  entry := by
    rw [hc]
    by_cases e : j = i
    · subst e
      rw [if_pos rfl]
      have := hj; rw [hq.entry] at this; injection this with this; subst this
      have hi := (List.getElem?_eq_some_iff.1 hj).1
      exact List.getElem?_set_self hi
    · rw [if_neg e]
      show (w.ctl.lsts.set j _)[i]? = _
      rw [List.getElem?_set_ne e, hq.entry]
  pool := by rw [hc]; rfl
  active := hq.active
  accounts := by rw [hl]; exact hq.accounts

theorem set_idem {w : World} {i : Nat} {p : PoolState} {s : LstState} {v : Nat} :
    (w.ctl.record i p s v).record i { p with totalSolValue := p.totalSolValue - s.solValue + v } { s with solValue := v } v =
      w.ctl.record i p s v := by
  simp [Ctl.record, List.set_set]

/-- C22, idempotent: repeating SyncSolValue with the same accounts changes nothing (and succeeds), for any calculators that
answer by their accounts and the amount asked. -/
theorem C22_idempotent {tx tx' : TxInfo} {w w' : World} {accs : List Acc} {i : Nat}
    (h : processIx cfg L (Env.pure cfg calcF priceF) tx w accs (.syncSolValue i) = .ok w') :
    processIx cfg L (Env.pure cfg calcF priceF) tx' w' accs (.syncSolValue i) = .ok w' := by
  obtain ⟨p, s, held, extra, r, hq, ha, h1, h2, h3, h4, h5⟩ := sync_iff.1 h
  obtain ⟨ha, hl⟩ := Env.pure_calc.1 ha
  have hq' := hq.recorded hq.entry h5 hl
  rw [if_pos rfl] at hq'
  refine sync_iff.2 ⟨_, _, held, extra, r, hq', Env.pure_calc.2 ⟨ha, rfl⟩, h1, h2, ?_, ?_, ?_⟩
  · simp only; omega
  · simp only; omega
  · rw [h5, set_idem]

theorem record_comm {c : Ctl} {i j : Nat} {p : PoolState} {s t : LstState} {u v : Nat} (hij : i ≠ j) (hs : s.solValue ≤ p.totalSolValue)
    (ht : t.solValue ≤ p.totalSolValue) (ht' : t.solValue ≤ p.totalSolValue - s.solValue + u)
    (hs' : s.solValue ≤ p.totalSolValue - t.solValue + v) :
    (c.record i p s u).record j { p with totalSolValue := p.totalSolValue - s.solValue + u } t v =
      (c.record j p t v).record i { p with totalSolValue := p.totalSolValue - t.solValue + v } s u := by
  simp only [Ctl.record, Ctl.mk.injEq, Option.some.injEq, PoolState.mk.injEq, and_true]
  exact ⟨by omega, List.set_comm _ _ hij⟩

/-- C22, order: in a reachable state, if one LST can be synced and then another, and the other one can be synced first, then
syncing the first one afterwards succeeds and gives the same state. For any calculators that answer by their accounts and the
amount asked. (Syncing in the other order can fail only if the total after its first step exceeds 64 bits, by C41.) -/
theorem C22_order {tx₁ tx₂ tx₃ tx₄ : TxInfo} {w w₁ w₂ v₁ : World} {accsI accsJ : List Acc} {i j : Nat} (hij : i ≠ j)
    (hr : Reachable cfg L w)
    (h₁ : processIx cfg L (Env.pure cfg calcF priceF) tx₁ w accsI (.syncSolValue i) = .ok w₁)
    (h₂ : processIx cfg L (Env.pure cfg calcF priceF) tx₂ w₁ accsJ (.syncSolValue j) = .ok w₂)
    (g₁ : processIx cfg L (Env.pure cfg calcF priceF) tx₃ w accsJ (.syncSolValue j) = .ok v₁) :
    processIx cfg L (Env.pure cfg calcF priceF) tx₄ v₁ accsI (.syncSolValue i) = .ok w₂ := by
  have hI := (hr.inv.ix g₁).ctl
  obtain ⟨p, s, held, extra, r, hq, ha, h1, h2, h3, h4, h5⟩ := sync_iff.1 h₁
  obtain ⟨p', t, held', extra', r', hq', ha', h1', h2', h3', h4', h5'⟩ := sync_iff.1 g₁
  have e := hq'.pool; rw [hq.pool] at e; injection e with e; subst e
  obtain ⟨ha, hl⟩ := Env.pure_calc.1 ha
  obtain ⟨ha', hl'⟩ := Env.pure_calc.1 ha'
  have k₁ := hq.recorded hq'.entry h5' hl'
  rw [if_neg (Ne.symm hij)] at k₁
  have k₂ := hq'.recorded hq.entry h5 hl
  rw [if_neg hij] at k₂
  obtain ⟨p₂, t₂, held₂, extra₂, r₂, hq₂, ha₂, h1₂, h2₂, h3₂, h4₂, h5₂⟩ := sync_iff.1 h₂
  obtain ⟨ha₂, hl₂⟩ := Env.pure_calc.1 ha₂
  obtain ⟨rfl, rfl, rfl, rfl⟩ := k₂.unique hq₂
  rw [ha'] at ha₂; injection ha₂ with ha₂; subst ha₂
  have hv := value_le_sum k₁.entry
  rw [← hI.total _ k₁.pool] at hv
  simp only at hv h3₂ h4₂
  refine sync_iff.2 ⟨_, _, held, extra, r, k₁, Env.pure_calc.2 ⟨ha, by rw [hl₂, hl, hl']⟩, h1, h2, hv, ?_, ?_⟩
  · simp only; omega
  · rw [h5₂, h5, h5', record_comm hij h3 h3' h3₂ hv]

end

/-! Concretely: with 5000 more of LST 21 and 700 more of LST 22 given to the pool, both records are out of date; both LSTs sync,
in either order. -/
def Ex.syncA : List Acc := [Ex.ro 21, Ex.rw 1, Ex.rw 2, Ex.rw Ex.resA, Ex.ro 31]
def Ex.syncB : List Acc := [Ex.ro 22, Ex.rw 1, Ex.rw 2, Ex.rw Ex.resB, Ex.ro 32]

def Ex.gift : Tx Ex.cfg :=
  [.foreign ⟨77, [], []⟩ (by decide) [.ext (Ex.moveTokens 41 Ex.resA 5000) (Ex.moveTokens_ok _ _ _),
    .ext (Ex.moveTokens 42 Ex.resB 700) (Ex.moveTokens_ok _ _ _)]]

def Ex.stale : World := runHistory .ex Ex.w0 (Ex.hist.take 7 ++ [Ex.gift])
theorem Ex.stale_reachable : Reachable Ex.cfg .ex Ex.stale := ⟨Ex.w0, Ex.w0_fresh, _, rfl⟩

def Ex.sync (accs : List Acc) (i : Nat) (w : World) : R World := processIx Ex.cfg .ex Ex.env ⟨[], 0⟩ w accs (.syncSolValue i)
def Ex.values (r : R World) : Option (Nat × List Nat) :=
  r.toOption.bind fun w => w.ctl.pool.map fun p => (p.totalSolValue, w.ctl.lsts.map LstState.solValue)

example : Ex.values (.ok Ex.stale) = some (60055, [36031, 24024]) := by decide +kernel
example : Ex.values (Ex.sync Ex.syncA 0 Ex.stale) = some (65055, [41031, 24024]) := by decide +kernel
example : Ex.values (Ex.sync Ex.syncA 0 Ex.stale >>= Ex.sync Ex.syncB 1) = some (66105, [41031, 25074]) := by decide +kernel
example : Ex.values (Ex.sync Ex.syncB 1 Ex.stale >>= Ex.sync Ex.syncA 0) = some (66105, [41031, 25074]) := by decide +kernel
example : Ex.values (Ex.sync Ex.syncB 1 Ex.stale) = some (61105, [36031, 25074]) := by decide +kernel

end S
