import Verif.Props.JupRefresh
/-
C80: the off-chain library quotes only from stake pools that are in order this epoch.
-/
set_option autoImplicit false
namespace S

/-! ### Specification -/

/-- The figures of a stake pool that may be used in `epoch`: Lido's and the SPL pools' were updated in it, Marinade's pool is not paused and lets stake be
withdrawn. Wrapped SOL always may. -/
def AnyCalc.InOrder (epoch : Nat) : AnyCalc → Prop
  | .lido x => x.computedInEpoch = epoch
  | .marinade x => x.paused = false ∧ x.withdrawStakeAccountEnabled = true
  | .wsol => True
  | .spl x => x.lastUpdateEpoch = epoch

/-- The LSTs a quote is about: its two mints other than the LP token's. -/
def QuoteParams.Lst (q : QuoteParams) (pool : PoolState) (m : Pubkey) : Prop := (m = q.inputMint ∨ m = q.outputMint) ∧ m ≠ pool.lpTokenMint

/-! ### Proofs -/

theorem KnownCalc.usable_figures {k : KnownCalc} {epoch : Nat} {c : AnyCalc} (h : k.usable epoch = .ok c) : k.figures = some c ∧ c.InOrder epoch := by
  cases k with
  | wsol => injection h with h; subst h; exact ⟨rfl, trivial⟩
  | lido o =>
    simp only [KnownCalc.usable, LidoCalc.verifyUpdated, bind_ok, okOr_ok, require_ok, pure_ok, exists_const] at h
    obtain ⟨x, rfl, h1, rfl⟩ := h
    exact ⟨rfl, h1⟩
  | marinade o =>
    simp only [KnownCalc.usable, MarinadeCalc.verifyCanWithdrawStake, bind_ok, okOr_ok, require_ok, pure_ok, exists_const] at h
    obtain ⟨x, rfl, ⟨h1, h2⟩, rfl⟩ := h
    refine ⟨rfl, ?_, ?_⟩ <;> simp_all
  | spl kd m p o =>
    simp only [KnownCalc.usable, SplCalc.verifyUpdated, bind_ok, okOr_ok, require_ok, pure_ok, exists_const] at h
    obtain ⟨x, rfl, h1, rfl⟩ := h
    exact ⟨rfl, h1⟩

section
variable {J : JupCfg} {L : RatioLib} {list : List SanctumLst} {ch : OnChain} {F : FlatFee} {w : World} {S : SPool} {q : QuoteParams} {Q : Quote} {pool : PoolState}

theorem applySync_usable {t : Nat} {s : LstState} {d : LstData} {x : Nat × Nat} (h : S.applySync L t s d = .ok x) : ∃ c, d.solCalc.usable S.epoch = .ok c := by
  simp only [SPool.applySync, KnownCalc.lstToSol, bind_ok] at h
  obtain ⟨_, _, _, ⟨c, hc, _⟩, _⟩ := h
  exact ⟨c, hc⟩

theorem quote_usable (h : S.quote L q = .ok Q) (hp : S.pool = .ok pool) {m : Pubkey} (hm : q.Lst pool m) :
    ∃ s d c, S.findReady m = .ok (s, d) ∧ d.solCalc.usable S.epoch = .ok c := by
  obtain ⟨hm, hne⟩ := hm
  simp only [SPool.quote, bind_ok, hp, Except.ok.injEq, exists_eq_left'] at h
  split at h
  · rename_i hin
    split at h
    · cases h
    · rcases hm with rfl | rfl
      · contradiction
      · simp only [SPool.quoteRemove, bind_ok, require_ok, Prod.exists, exists_const] at h
        obtain ⟨_, _, _, _, _, _, s, d, hs, _, _, hy, _⟩ := h
        obtain ⟨c, hc⟩ := applySync_usable hy
        exact ⟨s, d, c, hs, hc⟩
  · split at h
    · split at h
      · cases h
      · rcases hm with rfl | rfl
        · simp only [SPool.quoteAdd, bind_ok, require_ok, Prod.exists, exists_const] at h
          obtain ⟨_, _, _, _, _, _, s, d, hs, _, _, _, hy, _⟩ := h
          obtain ⟨c, hc⟩ := applySync_usable hy
          exact ⟨s, d, c, hs, hc⟩
        · contradiction
    · split at h
      · simp only [SPool.quoteExactOut, bind_ok, require_ok, Prod.exists, exists_const] at h
        obtain ⟨_, _, _, _, s, d, hs, _, _, _, hy, s', d', hs', _, _, hy', _⟩ := h
        rcases hm with rfl | rfl
        · obtain ⟨c, hc⟩ := applySync_usable hy
          exact ⟨s, d, c, hs, hc⟩
        · obtain ⟨c, hc⟩ := applySync_usable hy'
          exact ⟨s', d', c, hs', hc⟩
      · simp only [SPool.quoteExactIn, bind_ok, require_ok, Prod.exists, exists_const] at h
        obtain ⟨_, _, _, _, s, d, hs, _, _, _, hy, s', d', hs', _, _, hy', _⟩ := h
        rcases hm with rfl | rfl
        · obtain ⟨c, hc⟩ := applySync_usable hy
          exact ⟨s, d, c, hs, hc⟩
        · obtain ⟨c, hc⟩ := applySync_usable hy'
          exact ⟨s', d', c, hs', hc⟩

theorem findReady_at {m : Pubkey} {s : LstState} {d : LstData} (h : S.findReady m = .ok (s, d)) : ∃ lsts, ∃ (i : Nat), S.lstList.lsts = .ok lsts ∧ lsts[i]? = some s ∧
    S.data[i]? = some (some d) ∧ s.mint = m := by
  simp only [SPool.findReady, bind_ok, okOr_ok, pure_ok, Prod.exists, Prod.mk.injEq] at h
  obtain ⟨lsts, hl, s', o, hf, d', rfl, rfl, rfl⟩ := h
  have hm := List.find?_some hf
  obtain ⟨i, hi⟩ := List.mem_iff_getElem?.1 (List.mem_of_find?_eq_some hf)
  rw [List.getElem?_zip_eq_some] at hi
  exact ⟨lsts, i, hl, hi.1, hi.2, by simpa using hm⟩

/-- C80. Whatever the cache: a quote is only given if, for each LST it is about, the cache holds figures of its stake pool that may be used in the epoch the
cache was told of. -/
theorem C80_quote_in_order (h : S.quote L q = .ok Q) (hp : S.pool = .ok pool) {m : Pubkey} (hm : q.Lst pool m) :
    ∃ s d c, S.findReady m = .ok (s, d) ∧ s.mint = m ∧ d.solCalc.figures = some c ∧ c.InOrder S.epoch := by
  obtain ⟨s, d, c, hs, hc⟩ := quote_usable h hp hm
  obtain ⟨_, _, _, _, _, hm⟩ := findReady_at hs
  exact ⟨s, d, c, hs, hm, KnownCalc.usable_figures hc⟩

/-- C80. After a refresh (C53), quotes are given only for LSTs whose stake pools, as they stand on the chain, are in order this epoch. -/
theorem C80_chain_in_order (hf : Full J list ch F S w) (h : S.quote L q = .ok Q) (hp : w.ctl.pool = some pool) {m : Pubkey} (hm : q.Lst pool m) :
    ∃ c, ChainFigures J list ch m c ∧ c.InOrder ch.epoch := by
  obtain ⟨p', hp', hwp⟩ := hf.pool
  rw [hp] at hwp; injection hwp with hwp; subst hwp
  obtain ⟨s, d, c, hs, hsm, hc, ho⟩ := C80_quote_in_order h hp' hm
  obtain ⟨lsts, i, hl, h1, h2, _⟩ := findReady_at hs
  rw [hf.lsts] at hl; injection hl with hl; subst hl
  have := hf.figures i s d c h1 h2 hc
  rw [hsm] at this
  exact ⟨c, this, hf.epoch ▸ ho⟩

end

namespace Ex

theorem rquote : (rS2.1.quote .ex ⟨1000, 21, 22, false⟩).toOption.map (fun Q => (Q.inAmount, Q.outAmount)) = some (1000, 665) := by decide +kernel

-- The refreshed cache of the example quotes a swap of LST 21 for LST 22; the stake pool of 22 is in order on the chain.
example : ∃ c, ChainFigures rjup jupList rch 22 c ∧ c.InOrder rch.epoch := by
  obtain ⟨Q, hQ⟩ : ∃ Q, rS2.1.quote .ex ⟨1000, 21, 22, false⟩ = .ok Q := by
    have := rquote
    revert this
    cases rS2.1.quote .ex ⟨1000, 21, 22, false⟩ with
    | ok x => exact fun _ => ⟨x, rfl⟩
    | error e => exact fun h => by cases h
  obtain ⟨p, hp⟩ := Option.ne_none_iff_exists'.1 rpool
  refine C80_chain_in_order rfresh.2 hQ hp ⟨.inr rfl, ?_⟩
  have h1 : (st 7).ctl.pool.map PoolState.lpTokenMint = some 20 := by decide +kernel
  rw [hp] at h1
  injection h1 with h1
  rw [h1]; decide

-- In the next epoch the same cache refuses: the pool has not been updated.
example : ((rS2.1.epoch, { rS2.1 with epoch := 1 }.quote .ex ⟨1000, 21, 22, false⟩ |>.toOption) : Nat × Option Quote) = (0, none) := by decide +kernel

end Ex
end S
