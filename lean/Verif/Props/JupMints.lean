import Verif.Props.JupRefresh
/-!
# C94: the mints the Jupiter library offers

`get_reserve_mints` names every mint a quote or an instruction of the library can involve; after a refresh these are the pool's LSTs, each once, and its LP token.
-/
set_option autoImplicit false
namespace S
section
variable {J : JupCfg} {L : RatioLib} {S : SPool}

theorem findReady_mem {mint : Pubkey} {s : LstState} {d : LstData} (h : S.findReady mint = .ok (s, d)) : mint ∈ S.reserveMints := by
  obtain ⟨lsts, i, hl, hi, -, rfl⟩ := SPool.findReady_ok h
  simp only [SPool.reserveMints, hl]
  exact List.mem_append_left _ (List.mem_map.2 ⟨s, List.mem_of_getElem? hi, rfl⟩)

theorem lp_mem {p : PoolState} (h : S.pool = .ok p) : p.lpTokenMint ∈ S.reserveMints := by
  simp only [SPool.reserveMints, h]
  exact List.mem_append_right _ (by simp)

/-- C94: a quote is only given between mints the library offers, whatever the cache holds, and the fee is in one of them. -/
theorem C94_quote {q : QuoteParams} {Q : Quote} (h : S.quote L q = .ok Q) :
    q.inputMint ∈ S.reserveMints ∧ q.outputMint ∈ S.reserveMints ∧ Q.feeMint ∈ S.reserveMints := by
  simp only [SPool.quote, bind_ok] at h
  obtain ⟨p, hp, h⟩ := h
  split at h
  · rename_i e
    split at h
    · cases h
    · simp only [SPool.quoteRemove, bind_ok, Prod.exists, require_ok, exists_const, pure_ok] at h
      obtain ⟨_, -, _, -, _, -, so, d, hf, _, _, -, _, -, _, -, -, _, -, _, -, _, -, -, _, _, _, -, rfl⟩ := h
      exact ⟨e ▸ lp_mem hp, findReady_mem hf, findReady_mem hf⟩
  · split at h
    · rename_i e
      split at h
      · cases h
      · simp only [SPool.quoteAdd, bind_ok, Prod.exists, require_ok, exists_const, pure_ok] at h
        obtain ⟨_, -, _, -, _, -, si, d, hf, -, _, _, -, _, -, -, _, -, _, _, _, -, rfl⟩ := h
        exact ⟨findReady_mem hf, e ▸ lp_mem hp, findReady_mem hf⟩
    · split at h
      · simp only [SPool.quoteExactOut, bind_ok, Prod.exists, require_ok, exists_const, pure_ok] at h
        casesm* Exists _, And _ _
        subst_vars
        refine ⟨findReady_mem (by assumption), findReady_mem (by assumption), ?_⟩
        exact findReady_mem (by assumption)
      · simp only [SPool.quoteExactIn, bind_ok, Prod.exists, require_ok, exists_const, pure_ok] at h
        casesm* Exists _, And _ _
        subst_vars
        refine ⟨findReady_mem (by assumption), findReady_mem (by assumption), ?_⟩
        exact findReady_mem (by assumption)

/-- C94: the library builds an instruction only between mints it offers. -/
theorem C94_instruction {p : SwapParams} {exactOut : Bool} {ix : TopIx} (h : S.swapIx J p exactOut = .ok ix) :
    p.sourceMint ∈ S.reserveMints ∧ p.destinationMint ∈ S.reserveMints := by
  simp only [SPool.swapIx, bind_ok] at h
  obtain ⟨pool, hp, h⟩ := h
  split at h
  · rename_i e
    split at h
    · cases h
    · simp only [SPool.removeIx, SPool.liqRequest, bind_ok, Prod.exists] at h
      obtain ⟨_, ⟨_, _, hf, -⟩, -⟩ := h
      exact ⟨e ▸ lp_mem hp, findReady_mem hf⟩
  · split at h
    · rename_i e
      split at h
      · cases h
      · simp only [SPool.addIx, SPool.liqRequest, bind_ok, Prod.exists] at h
        obtain ⟨_, ⟨_, _, hf, -⟩, -⟩ := h
        exact ⟨findReady_mem hf, e ▸ lp_mem hp⟩
    · simp only [SPool.swapIx', SPool.swapRequest, bind_ok, Prod.exists] at h
      obtain ⟨_, -, _, ⟨_, _, hf, _, _, hf', -⟩, -⟩ := h
      exact ⟨findReady_mem hf, findReady_mem hf'⟩

/-- C94: after a refresh (C53) the library offers exactly the pool's LSTs, in the pool's order, each once, and the LP token. -/
theorem C94_refreshed {list : List SanctumLst} (hg : GoodList J list) {S₀ : SPool} (hi : JupInit J list S₀) {ops : List JupOp}
    (hfed : FedFromChain J L list ops) {S : SPool} (hS : S₀.after J ops = S)
    {w₀ : World} (hf : World.Fresh J.cfg w₀) {h : List (Tx J.cfg)} {w : World} (hw : runHistory L w₀ h = w) (hp : w.ctl.pool ≠ none)
    {cs : List (FlatCall J.fc)} (hst : (flatHistory L cs).state ≠ none) (hclosed : NoneClosed J (flatHistory L cs) S)
    {ch : OnChain} (hep : S.epoch = ch.epoch) (hr : ListRight J list ch w)
    {env : Env J.cfg} (hcalc : CalcsServed J L env ch) (hflat : env.FlatPriced L J.fc (flatHistory L cs) J.fc.programId)
    {m₁ m₂ : AccMap} {S₁ S₂ : SPool} (h₁ : Answers J list ch (flatHistory L cs) w (S.toFetch J) m₁) (hS₁ : (S.updateFull J m₁).1 = S₁)
    (h₂ : Answers J list ch (flatHistory L cs) w (S₁.toFetch J) m₂) (hS₂ : S₁.updateFull J m₂ = (S₂, .ok ())) :
    ∃ p, w.ctl.pool = some p ∧ S₂.reserveMints = w.ctl.lsts.map LstState.mint ++ [p.lpTokenMint] ∧ (w.ctl.lsts.map LstState.mint).Nodup := by
  have hinv : Inv J.cfg w := hw ▸ (history_inv (L := L) hf h).2
  obtain ⟨-, hfull⟩ := C53_refresh hg hi hfed hS hf hw hp hst hclosed hep hr hcalc hflat h₁ hS₁ h₂ hS₂
  obtain ⟨p, hp1, hp2⟩ := hfull.pool
  refine ⟨p, hp2, ?_, hinv.ctl.mints⟩
  simp only [SPool.reserveMints, hfull.lsts, hp1]

end

namespace Ex

/-- The example cache offers LSTs 21 and 22 and the LP token 20; quotes exist between them. -/
example : (cache (st 7)).reserveMints = [21, 22, 20] := by decide +kernel
example : ((cache (st 7)).quote .ex ⟨1000, 21, 22, false⟩).toOption.isSome = true := by decide +kernel

/-- The refreshed cache of C53's example offers the pool's mints. -/
example : ∃ p, (st 7).ctl.pool = some p ∧ rS2.1.reserveMints = (st 7).ctl.lsts.map LstState.mint ++ [p.lpTokenMint] ∧ ((st 7).ctl.lsts.map LstState.mint).Nodup := by
  have hg : GoodList rjup jupList := jupList_good
  have hf : S.World.Fresh rjup.cfg w0 := w0_fresh
  have hp : renv.FlatPriced .ex rjup.fc (flatHistory .ex rhist) rjup.fc.programId := fun h => renv_priced h
  exact C94_refreshed hg rinit rops_fed rS_eq hf (st_eq 7) rpool rstate rclosed repoch rlist_right renv_served hp ranswer1 rS1_eq ranswer2 rS2_eq

end Ex
end S
