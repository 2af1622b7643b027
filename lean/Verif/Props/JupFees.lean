import Verif.Props.JupQuote
import Verif.Props.FairValue
import Verif.Props.Exit
/-!
# C75: a quote's figures add up

What the Jupiter library shows in a quote, against the stake pools' own payout rules (C71): value given = value received + fee shown, to within the slack of a conversion,
and the percentage shown is the share of the fee in the value before it.
-/
set_option autoImplicit false
namespace S
variable {L : RatioLib}

/-! ### Specification -/

/-- The library knows the LST: `c` are the figures of its stake pool, with tokens and lamports in it, `reserves` the balance of the pool's reserves and `s` the pool's record. -/
def SPool.Sees (S : SPool) (mint : Pubkey) (s : LstState) (reserves : Nat) (c : AnyCalc) : Prop :=
  ∃ d, S.findReady mint = .ok (s, d) ∧ d.reserves = some reserves ∧ d.solCalc.usable S.epoch = .ok c ∧ c.Usable

/-- The fees of a quote: a value of `before` lamports is reduced to `after`. The percentage is the share of the difference, the amount is the LSTs it pays for. -/
def Quote.Charges (Q : Quote) (c : AnyCalc) (before after : Nat) : Prop :=
  after ≤ before ∧ before ≠ 0 ∧ Q.feePct = (before - after, before) ∧ c.Under Q.feeAmount (before - after)

/-! ### Proofs -/
section
variable {S : SPool} {q : QuoteParams} {Q : Quote}

theorem SPool.Sees.lstToSol {mint : Pubkey} {s s' : LstState} {res : Nat} {c : AnyCalc} {d : LstData} (h : S.Sees mint s res c) (hd : S.findReady mint = .ok (s', d))
    {x : Nat} {r : Range} (hr : d.solCalc.lstToSol L S.epoch x = .ok r) : r = ⟨c.payout x, c.payout x⟩ := by
  obtain ⟨d', h1, _, h2, hu⟩ := h
  rw [hd] at h1; cases h1
  obtain ⟨c', hc, hr⟩ := KnownCalc.lstToSol_ok hr
  rw [h2] at hc; cases hc
  exact ((C71_value L hu).1 hr).1

theorem SPool.Sees.solToLst {mint : Pubkey} {s s' : LstState} {res : Nat} {c : AnyCalc} {d : LstData} (h : S.Sees mint s res c) (hd : S.findReady mint = .ok (s', d))
    {x : Nat} {r : Range} (hr : d.solCalc.solToLst L S.epoch x = .ok r) : (c.calculator L).solToLst x = .ok r ∧ c.Usable := by
  obtain ⟨d', h1, _, h2, hu⟩ := h
  rw [hd] at h1; cases h1
  obtain ⟨c', hc, hr⟩ := KnownCalc.solToLst_ok hr
  rw [h2] at hc; cases hc
  exact ⟨hr, hu⟩

theorem SPool.Sees.charges {mint : Pubkey} {s s' : LstState} {res : Nat} {c : AnyCalc} {d : LstData} (h : S.Sees mint s res c) (hd : S.findReady mint = .ok (s', d))
    {before after fa : Nat} {fp : Nat × Nat} (hq : S.quoteFees L before after d.solCalc = .ok (fa, fp)) (i o : Nat) (m : Pubkey) :
    (Quote.mk i o m fa fp).Charges c before after := by
  simp only [SPool.quoteFees, bind_ok, subU64_ok, require_ok, exists_const, pure_ok, Prod.mk.injEq] at hq
  obtain ⟨_, ⟨rfl, hle⟩, h0, r, hr, rfl, rfl⟩ := hq
  obtain ⟨hr, hu⟩ := h.solToLst hd hr
  exact ⟨hle, h0, rfl, (AnyCalc.under hu hr).1⟩

theorem SPool.Sees.synced {mint : Pubkey} {s s' : LstState} {res : Nat} {c : AnyCalc} {d : LstData} (h : S.Sees mint s res c) (hd : S.findReady mint = .ok (s', d))
    {total t n : Nat} (hs : S.applySync L total s' d = .ok (t, n)) : t + s.solValue = total + c.payout res ∧ n = res := by
  have h' := h
  obtain ⟨d', h1, h2, _, _⟩ := h
  rw [hd] at h1; cases h1
  simp only [SPool.applySync, bind_ok, okOr_ok, h2, Option.some.injEq, exists_eq_left', pure_ok, Prod.mk.injEq, syncedTotal, subU64_ok, addU64_ok] at hs
  obtain ⟨v, hv, t', ⟨x, hx, ht'⟩, rfl, rfl⟩ := hs
  have := h'.lstToSol hd hv
  subst this
  dsimp only at ht'
  omega

/-- C75: in a quote of a swap of `amount`, what the input's stake pool pays out for `amount` is split into the fee shown and what the output amount shown is worth. -/
theorem C75_swapExactIn (h : S.quoteExactIn L q = .ok Q) {pp : FlatProg} (hp : S.pricing = some pp) {si so : LstState} {ri ro : Nat} {ci co : AnyCalc}
    (hi : S.Sees q.inputMint si ri ci) (ho : S.Sees q.outputMint so ro co) :
    ∃ fi fo n, pp.fee q.inputMint = .ok fi ∧ pp.fee q.outputMint = .ok fo ∧ ((n : Nat) : Int) = 10000 - (fi.inputFeeBps + fo.outputFeeBps) ∧
      Q.inAmount = q.amount ∧ Q.feeMint = q.outputMint ∧ Q.outAmount ≠ 0 ∧
      Q.Charges co (ci.payout q.amount) (ci.payout q.amount * n / 10000) ∧ co.Under Q.outAmount (ci.payout q.amount * n / 10000) := by
  simp only [SPool.quoteExactIn, bind_ok, okOr_ok, require_ok, pure_ok, Prod.exists, exists_const] at h
  obtain ⟨p', hp', pp', hpp, si', di, hsi, -, _, _, _, so', d_o, hso, _, _, _, inS, hinS, -, outS, houtS, -, rO, hrO, h0, _, _, _, _, -,
    fa, fp1, fp2, hfee, rfl⟩ := h
  rw [hp] at hpp; cases hpp
  have := hi.lstToSol hsi hinS
  subst this
  simp only [FlatProg.quoteExactIn, bind_ok] at houtS
  obtain ⟨fi, hfi, fo, hfo, houtS⟩ := houtS
  obtain ⟨n, hn, rfl, _⟩ := flatPriceExactIn_ok.1 houtS
  obtain ⟨hr, hu⟩ := ho.solToLst hso hrO
  exact ⟨fi, fo, n, hfi, hfo, (outSolValueRatio_ok.1 hn).1, rfl, rfl, h0, ho.charges hso hfee _ _ _, (AnyCalc.under hu hr).1⟩

/-- C75: in a quote of a swap for `amount`, what the input amount shown is worth is the fee shown and what the output's stake pool pays out for `amount`. -/
theorem C75_swapExactOut (h : S.quoteExactOut L q = .ok Q) {pp : FlatProg} (hp : S.pricing = some pp) {si so : LstState} {ri ro : Nat} {ci co : AnyCalc}
    (hi : S.Sees q.inputMint si ri ci) (ho : S.Sees q.outputMint so ro co) :
    ∃ fi fo n, pp.fee q.inputMint = .ok fi ∧ pp.fee q.outputMint = .ok fo ∧ n = 10000 - (fi.inputFeeBps + fo.outputFeeBps) ∧
      Q.outAmount = q.amount ∧ Q.feeMint = q.outputMint ∧ Q.inAmount ≠ 0 ∧
      ∃ w, (0 < n → w = (10000 * (co.payout q.amount + 1) + n.toNat - 1) / n.toNat) ∧ Q.Charges co w (co.payout q.amount) ∧ ci.Over Q.inAmount w := by
  simp only [SPool.quoteExactOut, bind_ok, okOr_ok, require_ok, pure_ok, Prod.exists, exists_const] at h
  obtain ⟨p', hp', pp', hpp, si', di, hsi, -, _, _, _, so', d_o, hso, _, _, _, outS, houtS, -, inS, hinS, -, rI, hrI, h0, _, _, _, _, -,
    fa, fp1, fp2, hfee, rfl⟩ := h
  rw [hp] at hpp; cases hpp
  have := ho.lstToSol hso houtS
  subst this
  simp only [FlatProg.quoteExactOut, bind_ok] at hinS
  obtain ⟨fi, hfi, fo, hfo, hinS⟩ := hinS
  obtain ⟨hr, hu⟩ := hi.solToLst hsi hrI
  refine ⟨fi, fo, _, hfi, hfo, rfl, rfl, rfl, h0, inS, fun hn => ?_, ho.charges hso hfee _ _ _, (AnyCalc.under hu hr).2⟩
  obtain ⟨n, hn', _, rfl, _⟩ := flatPriceExactOut_ok (by omega) hinS
  have := (outSolValueRatio_ok.1 hn').1
  rw [← this, Int.toNat_natCast]; rfl

/-- C75: a quote of a deposit shows no fee, and the LP tokens for exactly what the stake pool pays out for it; there is none for LSTs worth nothing. -/
theorem C75_addLiquidity (h : S.quoteAdd L q = .ok Q) {p : PoolState} (hp : S.pool = .ok p) {supply : Nat} (hs : S.lpSupply = some supply) {s : LstState} {res : Nat} {c : AnyCalc}
    (hi : S.Sees q.inputMint s res c) :
    ∃ total, total + s.solValue = p.totalSolValue + c.payout res ∧ c.payout q.amount ≠ 0 ∧
      Q.inAmount = q.amount ∧ Q.feeMint = q.inputMint ∧ Q.feeAmount = 0 ∧ Q.feePct = (0, c.payout q.amount) ∧ LpMinted supply total (c.payout q.amount) Q.outAmount := by
  simp only [SPool.quoteAdd, bind_ok, okOr_ok, require_ok, pure_ok, Prod.exists, exists_const] at h
  obtain ⟨p', hp', pp', hpp, sup, hsup, si', di, hsi, -, t1, n1, hsync, vv, hvv, -, lp, hlp, fa, fp1, fp2, hfee, rfl⟩ := h
  rw [hp] at hp'; cases hp'
  rw [hs] at hsup; cases hsup
  obtain ⟨ht, _⟩ := hi.synced hsi hsync
  have := hi.lstToSol hsi hvv
  subst this
  simp only [SPool.quoteFees, bind_ok, subU64_ok, require_ok, exists_const, pure_ok, Prod.mk.injEq] at hfee
  obtain ⟨_, ⟨rfl, hle⟩, h0, r, hr, rfl, rfl, rfl⟩ := hfee
  obtain ⟨hr, hu⟩ := hi.solToLst hsi hr
  refine ⟨t1, ht, h0, rfl, rfl, ?_, by simp, lpMinted_ok hlp⟩
  dsimp only at hr ⊢
  rw [Nat.sub_self] at hr
  rw [(c.is L hu).solToLst hr]
  exact c.rmin_zero

/-- C75: in a quote of a redemption, what the LP tokens are worth is split into the fee shown and what the LSTs shown are worth. -/
theorem C75_removeLiquidity (h : S.quoteRemove L q = .ok Q) {p : PoolState} (hp : S.pool = .ok p) {pp : FlatProg} (hpp : S.pricing = some pp)
    {supply : Nat} (hs : S.lpSupply = some supply) {s : LstState} {res : Nat} {c : AnyCalc} (ho : S.Sees q.outputMint s res c) :
    ∃ total v st, total + s.solValue = p.totalSolValue + c.payout res ∧ LpValue supply total q.amount v ∧ pp.state = some st ∧
      Q.inAmount = q.amount ∧ Q.feeMint = q.outputMint ∧
      Q.Charges c v (v - (v * st.lpWithdrawalFeeBps + 9999) / 10000) ∧ c.Under Q.outAmount (v - (v * st.lpWithdrawalFeeBps + 9999) / 10000) ∧ Q.outAmount ≤ res := by
  simp only [SPool.quoteRemove, bind_ok, okOr_ok, require_ok, pure_ok, Prod.exists, exists_const] at h
  obtain ⟨p', hp', pp', hpp', sup, hsup, so', d_o, hso, t1, n1, hsync, v, hv, after, hafter, -, out, hout, fee, _, tot, htot, hle, fa, fp1, fp2, hfee, rfl⟩ := h
  rw [hp] at hp'; cases hp'
  rw [hpp] at hpp'; cases hpp'
  rw [hs] at hsup; cases hsup
  obtain ⟨ht, rfl⟩ := ho.synced hso hsync
  obtain ⟨hr, hu⟩ := ho.solToLst hso hout
  simp only [FlatProg.quoteRedeem, bind_ok, okOr_ok] at hafter
  obtain ⟨st, hst, hafter⟩ := hafter
  obtain ⟨_, rfl⟩ := C25_redeem.1 hafter
  rw [addU64_ok] at htot
  exact ⟨t1, v, st, ht, lpValue_ok hv, hst, rfl, rfl, ho.charges hso hfee _ _ _, (AnyCalc.under hu hr).1, by dsimp only; omega⟩

end

/-! ### The hypotheses are met -/
namespace Ex

theorem sees_wsol : ∃ s, (cache (st 7)).Sees 21 s 36031 .wsol := by
  obtain ⟨s, d, h⟩ : ∃ s d, ((cache (st 7)).findReady 21).toOption = some (s, d) ∧ d = ⟨.wsol, some 36031, 8⟩ := ⟨⟨0, 255, 255, 36031, 21, 31⟩, _, by decide +kernel, rfl⟩
  obtain ⟨h, rfl⟩ := h
  cases hx : (cache (st 7)).findReady 21 with
  | error e => rw [hx] at h; cases h
  | ok x => rw [hx] at h; injection h with h; subst h; exact ⟨s, _, hx, rfl, rfl, trivial⟩

theorem sees_lido : ∃ s, (cache (st 7)).Sees 22 s 16016 (.lido ⟨0, 2, 3⟩) := by
  obtain ⟨s, d, h⟩ : ∃ s d, ((cache (st 7)).findReady 22).toOption = some (s, d) ∧ d = ⟨.lido (some ⟨0, 2, 3⟩), some 16016, 8⟩ :=
    ⟨⟨0, 255, 255, 24024, 22, 32⟩, _, by decide +kernel, rfl⟩
  obtain ⟨h, rfl⟩ := h
  have he : (cache (st 7)).epoch = 0 := by decide +kernel
  cases hx : (cache (st 7)).findReady 22 with
  | error e => rw [hx] at h; cases h
  | ok x => rw [hx] at h; injection h with h; subst h; exact ⟨s, _, hx, rfl, by rw [he]; rfl, by decide, by decide⟩

-- 3000 lamports for Lido's token at 20 bp: 1996 base units worth 2994 lamports, the fee of 6 lamports is 4 base units
example : ((cache (st 7)).quoteExactIn .ex ⟨3000, 21, 22, false⟩).toOption = some ⟨3000, 1996, 22, 4, (6, 3000)⟩ := by decide +kernel
example : ((cache (st 7)).quoteExactOut .ex ⟨3000, 21, 22, true⟩).toOption = some ⟨4511, 3000, 22, 7, (11, 4511)⟩ := by decide +kernel
example : ((cache (st 7)).quoteAdd .ex ⟨3000, 22, 20, false⟩).toOption = some ⟨3000, 4495, 22, 0, (0, 4500)⟩ := by decide +kernel
example : ((cache (st 7)).quoteRemove .ex ⟨3000, 20, 22, false⟩).toOption = some ⟨3000, 1996, 22, 5, (8, 3002)⟩ := by decide +kernel
example {Q : Quote} (h : (cache (st 7)).quoteExactIn .ex ⟨3000, 21, 22, false⟩ = .ok Q) : (AnyCalc.lido ⟨0, 2, 3⟩).Under Q.feeAmount 6 := by
  obtain ⟨si, hi⟩ := sees_wsol
  obtain ⟨so, ho⟩ := sees_lido
  obtain ⟨fi, fo, n, _, _, _, _, _, _, ⟨_, _, h1, h2⟩, _⟩ := C75_swapExactIn h cache_pricing hi ho
  have e : ((cache (st 7)).quoteExactIn .ex ⟨3000, 21, 22, false⟩).toOption = some ⟨3000, 1996, 22, 4, (6, 3000)⟩ := by decide +kernel
  rw [h] at e; injection e with e
  rw [e] at h1
  injection h1 with h1 _
  rw [← h1] at h2; exact h2

end Ex
end S
