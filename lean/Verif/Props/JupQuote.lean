import Verif.Props.JupCache
import Verif.Props.Movements
import Verif.Props.Rates
import Verif.Props.FlatFee
import Verif.JupExample
/-
C31: the amounts quoted off chain are the amounts moved on chain.
-/
set_option autoImplicit false
namespace S

/-! ### Specification -/

/-- The cache shows the chain: its pool state and LST list are those of `w`; the LP supply and the reserves it holds are the ones in the
ledger; a calculator it can quote with is the one the calculator program answers by; the pricing program is the flat-fee program with the fees it
holds (`cs` is the flat-fee program's history). Nothing is said about what the cache does not hold. -/
structure Fresh (J : JupCfg) (L : RatioLib) (env : Env J.cfg) (cs : List (FlatCall J.fc)) (S : SPool) (w : World) : Prop where
  pool : ∀ p, S.pool = .ok p → w.ctl.pool = some p
  lsts : ∀ l, S.lstList.lsts = .ok l → w.ctl.lsts = l
  supply : ∀ p n m, S.pool = .ok p → S.lpSupply = some n → w.led.mints p.lpTokenMint = some m → m.supply = n
  reserves : ∀ (i : Nat) s d n m k, w.ctl.lsts[i]? = some s → S.data[i]? = some (some d) → d.reserves = some n →
    w.led.mints s.mint = some m → J.cfg.ata J.cfg.poolState m.program s.mint s.poolReservesBump = some k → bal w.led k = n
  calcs : ∀ (i : Nat) s d c, w.ctl.lsts[i]? = some s → S.data[i]? = some (some d) → d.solCalc.usable S.epoch = .ok c →
    env.Values L s.solValueCalculator s.mint c
  pricing : ∀ p pp, S.pool = .ok p → S.pricing = some pp → env.FlatPriced L J.fc (flatHistory L cs) p.pricingProgram
  fees : ∀ pp m a, S.pricing = some pp → pp.fee m = .ok a → (flatHistory L cs).feesOf J.fc m = some a
  state : ∀ pp s, S.pricing = some pp → pp.state = some s → (flatHistory L cs).state = some s

/-- The LST at index `i` of the list is `mint`. -/
def ListedAt (w : World) (i : Nat) (mint : Pubkey) : Prop := (w.ctl.lsts[i]?).map LstState.mint = some mint

/-! ### Proofs -/

theorem SPool.pool_ok {S : SPool} {p : PoolState} : S.pool = .ok p ↔ ∃ b, S.poolState = some b ∧ b.pool = .ok p := by
  simp only [SPool.pool, bind_ok, okOr_ok]

theorem SPool.findReady_ok {S : SPool} {mint : Pubkey} {s : LstState} {d : LstData} (h : S.findReady mint = .ok (s, d)) :
    ∃ (lsts : List LstState) (i : Nat), S.lstList.lsts = .ok lsts ∧ lsts[i]? = some s ∧ S.data[i]? = some (some d) ∧ s.mint = mint := by
  simp only [SPool.findReady, bind_ok, okOr_ok, pure_ok, Prod.exists, Prod.mk.injEq] at h
  obtain ⟨lsts, hl, s', o, hf, d', hd, rfl, rfl⟩ := h
  subst hd
  obtain ⟨i, hi⟩ := List.mem_iff_getElem?.1 (List.mem_of_find?_eq_some hf)
  rw [List.getElem?_zip_eq_some] at hi
  exact ⟨lsts, i, hl, hi.1, hi.2, by simpa using List.find?_some hf⟩

section
variable {J : JupCfg} {L : RatioLib} {env : Env J.cfg} {cs : List (FlatCall J.fc)} {S : SPool} {w : World}

/-- A cached slot is that of the listed LST with the mint asked for. -/
theorem Fresh.ready (hf : Fresh J L env cs S w) (hnd : (w.ctl.lsts.map LstState.mint).Nodup) {mint : Pubkey} {s s' : LstState}
    {d : LstData} {i : Nat} (h : S.findReady mint = .ok (s, d)) (hs' : w.ctl.lsts[i]? = some s') (hm : s'.mint = mint) :
    s = s' ∧ S.data[i]? = some (some d) := by
  obtain ⟨lsts, j, hl, hj, hd, hmj⟩ := SPool.findReady_ok h
  have := hf.lsts _ hl
  subst this
  have hij : j = i := by
    have hk' : (w.ctl.lsts.map LstState.mint)[j]? = (w.ctl.lsts.map LstState.mint)[i]? := by simp [hj, hs', hmj, hm]
    exact (List.getElem?_inj (by simpa using (List.getElem?_eq_some_iff.1 hj).1) hnd).1 hk'
  subst hij
  rw [hs'] at hj; cases hj
  exact ⟨rfl, hd⟩

theorem KnownCalc.lstToSol_ok {k : KnownCalc} {e x : Nat} {r : Range} (h : k.lstToSol L e x = .ok r) :
    ∃ c, k.usable e = .ok c ∧ (c.calculator L).lstToSol x = .ok r := by
  simpa only [KnownCalc.lstToSol, bind_ok] using h

theorem KnownCalc.solToLst_ok {k : KnownCalc} {e x : Nat} {r : Range} (h : k.solToLst L e x = .ok r) :
    ∃ c, k.usable e = .ok c ∧ (c.calculator L).solToLst x = .ok r := by
  simpa only [KnownCalc.solToLst, bind_ok] using h

theorem Fresh.lstToSol (hf : Fresh J L env cs S w) {i : Nat} {s : LstState} {d : LstData} (hs : w.ctl.lsts[i]? = some s)
    (hd : S.data[i]? = some (some d)) {x : Nat} {r r' : Range} (h : d.solCalc.lstToSol L S.epoch x = .ok r) {n : Nat} {l : Ledger}
    (ha : CalcAnswer env n l s.solValueCalculator s.mint (.lstToSol x) r') : r' = r := by
  obtain ⟨c, hc, hr⟩ := KnownCalc.lstToSol_ok h
  obtain ⟨w1, ms, _, hm, ha⟩ := ha
  have := ((hf.calcs i s d c hs hd hc) n w1 ms r' l hm).1 x ha
  rw [hr] at this; injection this with this; exact this.symm

theorem Fresh.solToLst (hf : Fresh J L env cs S w) {i : Nat} {s : LstState} {d : LstData} (hs : w.ctl.lsts[i]? = some s)
    (hd : S.data[i]? = some (some d)) {x : Nat} {r r' : Range} (h : d.solCalc.solToLst L S.epoch x = .ok r) {n : Nat} {l : Ledger}
    (ha : CalcAnswer env n l s.solValueCalculator s.mint (.solToLst x) r') : r' = r := by
  obtain ⟨c, hc, hr⟩ := KnownCalc.solToLst_ok h
  obtain ⟨w1, ms, _, hm, ha⟩ := ha
  have := ((hf.calcs i s d c hs hd hc) n w1 ms r' l hm).2 x ha
  rw [hr] at this; injection this with this; exact this.symm

theorem take_two_keys {ms : List Acc} {a b : Pubkey} (h : (ms.take [a, b].length).map Acc.key = [a, b]) {x y : Acc}
    (hx : ms[0]? = some x) (hy : ms[1]? = some y) : x.key = a ∧ y.key = b := by
  match ms, h, hx, hy with
  | m0 :: m1 :: rest, h, hx, hy =>
    simp at h hx hy
    subst hx hy
    exact h

theorem Fresh.exactIn (hf : Fresh J L env cs S w) {p : PoolState} {pp : FlatProg} (hp : S.pool = .ok p) (hpp : S.pricing = some pp)
    {mi mo : Pubkey} {v r r' : Nat} (h : pp.quoteExactIn L mi mo v = .ok r) {n a : Nat} {l : Ledger}
    (ha : PriceAnswer env n l p.pricingProgram [mi, mo] (.exactIn a v) r') : r' = r := by
  obtain ⟨w1, ms, _, hm, ha⟩ := ha
  obtain ⟨view, F', hfl⟩ := hf.pricing p pp hp hpp ha
  obtain ⟨_, xi, xo, fi, fo, y, h0, h1, hi, ho, hr, hy⟩ := C26_price_exact_in hfl
  injection hr with hr; subst hr
  obtain ⟨k1, k2⟩ := take_two_keys hm h0 h1
  simp only [FlatProg.quoteExactIn, bind_ok] at h
  obtain ⟨gi, hgi, go, hgo, h⟩ := h
  have e1 := hf.fees pp mi gi hpp hgi
  have e2 := hf.fees pp mo go hpp hgo
  rw [k1, e1] at hi; rw [k2, e2] at ho
  cases hi; cases ho
  rw [hy] at h; injection h

theorem Fresh.exactOut (hf : Fresh J L env cs S w) {p : PoolState} {pp : FlatProg} (hp : S.pool = .ok p) (hpp : S.pricing = some pp)
    {mi mo : Pubkey} {v r r' : Nat} (h : pp.quoteExactOut L mi mo v = .ok r) {n a : Nat} {l : Ledger}
    (ha : PriceAnswer env n l p.pricingProgram [mi, mo] (.exactOut a v) r') : r' = r := by
  obtain ⟨w1, ms, _, hm, ha⟩ := ha
  obtain ⟨view, F', hfl⟩ := hf.pricing p pp hp hpp ha
  obtain ⟨_, xi, xo, fi, fo, y, h0, h1, hi, ho, hr, hy⟩ := C26_price_exact_out hfl
  injection hr with hr; subst hr
  obtain ⟨k1, k2⟩ := take_two_keys hm h0 h1
  simp only [FlatProg.quoteExactOut, bind_ok] at h
  obtain ⟨gi, hgi, go, hgo, h⟩ := h
  have e1 := hf.fees pp mi gi hpp hgi
  have e2 := hf.fees pp mo go hpp hgo
  rw [k1, e1] at hi; rw [k2, e2] at ho
  cases hi; cases ho
  rw [hy] at h; injection h

theorem Fresh.redeem (hf : Fresh J L env cs S w) {p : PoolState} {pp : FlatProg} (hp : S.pool = .ok p) (hpp : S.pricing = some pp)
    {ms : List Pubkey} {v r r' : Nat} (h : pp.quoteRedeem v = .ok r) {n a : Nat} {l : Ledger}
    (ha : PriceAnswer env n l p.pricingProgram ms (.lpTokensToRedeem a v) r') : r' = r := by
  obtain ⟨w1, ms, _, hm, ha⟩ := ha
  obtain ⟨view, F', hfl⟩ := hf.pricing p pp hp hpp ha
  obtain ⟨_, s, y, hs, hr, hy⟩ := C26_price_redeem hfl
  injection hr with hr; subst hr
  simp only [FlatProg.quoteRedeem, bind_ok, okOr_ok] at h
  obtain ⟨s', hs', h⟩ := h
  rw [hf.state pp s' hpp hs'] at hs; cases hs
  rw [hy] at h; injection h

/-- The pool value after the LST is revalued, quoted and on chain. -/
theorem Fresh.total (hf : Fresh J L env cs S w) {i : Nat} {s : LstState} {d : LstData} (hs : w.ctl.lsts[i]? = some s)
    (hd : S.data[i]? = some (some d)) {t0 t res : Nat} (h : S.applySync L t0 s d = .ok (t, res)) {m : Mint} {k : Pubkey}
    (hm : w.led.mints s.mint = some m) (hk : J.cfg.ata J.cfg.poolState m.program s.mint s.poolReservesBump = some k)
    {n : Nat} {l : Ledger} {r0 : Range} (ha : CalcAnswer env n l s.solValueCalculator s.mint (.lstToSol (bal w.led k)) r0)
    {total : Nat} (ht : total + s.solValue = t0 + r0.min) : total = t := by
  simp only [SPool.applySync, bind_ok, okOr_ok, pure_ok, Prod.mk.injEq, syncedTotal, subU64_ok, addU64_ok] at h
  obtain ⟨n0, hn, v, hv, t', ⟨x, hx, ht'⟩, rfl, rfl⟩ := h
  rw [hf.reserves i s d n0 m k hs hd hn hm hk] at ha
  have := hf.lstToSol hs hd hv ha
  subst this
  omega

/-- C31, swap exact in: if the library quotes a swap and the instruction for that amount succeeds on chain on the state the cache shows, the
user pays exactly the quoted `in_amount` and receives exactly the quoted `out_amount`. -/
theorem C31_swapExactIn (hf : Fresh J L env cs S w) (hnd : (w.ctl.lsts.map LstState.mint).Nodup) (hq : env.Quiet)
    {q : QuoteParams} {Q : Quote} (hquote : S.quoteExactIn L q = .ok Q)
    {tx : TxInfo} {accs : List Acc} {args : SwapExactInArgs} {w' : World}
    (hi : ListedAt w args.srcLstIndex q.inputMint) (ho : ListedAt w args.dstLstIndex q.outputMint) (hamt : args.amount = q.amount)
    (h : processIx J.cfg L env tx w accs (.swapExactIn args) = .ok w') :
    ∃ fee p src dst signer srcAcc dstAcc feeAcc srcRes dstRes,
      SwapMoves J.cfg w w' accs args.srcLstIndex args.dstLstIndex Q.inAmount Q.outAmount fee p src dst signer srcAcc dstAcc feeAcc
        srcRes dstRes := by
  obtain ⟨out, fee, p, src, dst, signer, srcAcc, dstAcc, feeAcc, srcRes, dstRes, inSol, outSol, rOut, hm, a2, a3, a4, rfl, -⟩ :=
    C04_swapExactIn hq h
  simp only [SPool.quoteExactIn, bind_ok, okOr_ok, require_ok, pure_ok, Prod.exists, exists_const] at hquote
  obtain ⟨p', hp', pp, hpp, si, di, hsi, -, _, _, _, so, d_o, hso, _, _, _, inS, hinS, -, outS, houtS, -, rO, hrO, -, _, _, _, _, -,
    _, _, _, _, rfl⟩ := hquote
  have hpe := hf.pool p' hp'
  rw [hm.pool] at hpe; cases hpe
  have hmi : src.mint = q.inputMint := by simpa [ListedAt, hm.srcEntry] using hi
  have hmo : dst.mint = q.outputMint := by simpa [ListedAt, hm.dstEntry] using ho
  obtain ⟨rfl, hdi⟩ := hf.ready hnd hsi hm.srcEntry hmi
  obtain ⟨rfl, hdo⟩ := hf.ready hnd hso hm.dstEntry hmo
  have e2 := hf.lstToSol hm.srcEntry hdi (by rw [hamt]; exact hinS) a2
  subst e2
  rw [hmi, hmo] at a3
  have e3 := hf.exactIn hp' hpp houtS a3
  subst e3
  have e4 := hf.solToLst hm.dstEntry hdo hrO a4
  subst e4
  refine ⟨fee, p, si, so, signer, srcAcc, dstAcc, feeAcc, srcRes, dstRes, ?_⟩
  rw [hamt] at hm; exact hm

/-- C31, swap exact out. -/
theorem C31_swapExactOut (hf : Fresh J L env cs S w) (hnd : (w.ctl.lsts.map LstState.mint).Nodup) (hq : env.Quiet)
    {q : QuoteParams} {Q : Quote} (hquote : S.quoteExactOut L q = .ok Q)
    {tx : TxInfo} {accs : List Acc} {args : SwapExactOutArgs} {w' : World}
    (hi : ListedAt w args.srcLstIndex q.inputMint) (ho : ListedAt w args.dstLstIndex q.outputMint) (hamt : args.amount = q.amount)
    (h : processIx J.cfg L env tx w accs (.swapExactOut args) = .ok w') :
    ∃ fee p src dst signer srcAcc dstAcc feeAcc srcRes dstRes,
      SwapMoves J.cfg w w' accs args.srcLstIndex args.dstLstIndex Q.inAmount Q.outAmount fee p src dst signer srcAcc dstAcc feeAcc
        srcRes dstRes := by
  obtain ⟨srcIn, fee, p, src, dst, signer, srcAcc, dstAcc, feeAcc, srcRes, dstRes, outSol, inSol, rIn, hm, a2, a3, a4, rfl, -⟩ :=
    C05_swapExactOut hq h
  simp only [SPool.quoteExactOut, bind_ok, okOr_ok, require_ok, pure_ok, Prod.exists, exists_const] at hquote
  obtain ⟨p', hp', pp, hpp, si, di, hsi, -, _, _, _, so, d_o, hso, _, _, _, outS, houtS, -, inS, hinS, -, rI, hrI, -, _, _, _, _, -,
    _, _, _, _, rfl⟩ := hquote
  have hpe := hf.pool p' hp'
  rw [hm.pool] at hpe; cases hpe
  have hmi : src.mint = q.inputMint := by simpa [ListedAt, hm.srcEntry] using hi
  have hmo : dst.mint = q.outputMint := by simpa [ListedAt, hm.dstEntry] using ho
  obtain ⟨rfl, hdi⟩ := hf.ready hnd hsi hm.srcEntry hmi
  obtain ⟨rfl, hdo⟩ := hf.ready hnd hso hm.dstEntry hmo
  have e2 := hf.lstToSol hm.dstEntry hdo (by rw [hamt]; exact houtS) a2
  subst e2
  rw [hmi, hmo] at a3
  have e3 := hf.exactOut hp' hpp hinS a3
  subst e3
  have e4 := hf.solToLst hm.srcEntry hdi hrI a4
  subst e4
  refine ⟨fee, p, si, so, signer, srcAcc, dstAcc, feeAcc, srcRes, dstRes, ?_⟩
  rw [hamt] at hm; exact hm

/-- C31, adding liquidity: the user pays exactly the quoted `in_amount` of the LST and receives exactly the quoted `out_amount` of LP tokens. -/
theorem C31_addLiquidity (hf : Fresh J L env cs S w) (hnd : (w.ctl.lsts.map LstState.mint).Nodup) (hq : env.Quiet)
    {q : QuoteParams} {Q : Quote} (hquote : S.quoteAdd L q = .ok Q)
    {tx : TxInfo} {accs : List Acc} {args : AddLiquidityArgs} {w' : World}
    (hi : ListedAt w args.lstIndex q.inputMint) (hamt : args.lstAmount = q.amount)
    (h : processIx J.cfg L env tx w accs (.addLiquidity args) = .ok w') :
    ∃ p s signer userLst userLp feeAcc res toRes toFee,
      LiqParties J.cfg w accs args.lstIndex p s signer userLst userLp feeAcc res ∧ toRes + toFee = Q.inAmount ∧
      ∀ k, bal w'.led k + only userLst.key Q.inAmount k =
        bal w.led k + only res.key toRes k + only feeAcc.key toFee k + only userLp.key Q.outAmount k := by
  obtain ⟨p, s, signer, userLst, userLp, feeAcc, res, m, r0, v, vAfter, total, toRes, toFee, lp, hpar, hmint, _, _, a0, ht, a1, a2, _,
    hlp, _, _, _, hsum, _, hbal, _⟩ := C06_addLiquidity hq h
  simp only [SPool.quoteAdd, bind_ok, okOr_ok, require_ok, pure_ok, Prod.exists, exists_const] at hquote
  obtain ⟨p', hp', pp, hpp, sup, hsup, si, di, hsi, -, t1, res', hsync, vv, hvv, -, lp', hlp', _, _, _, _, rfl⟩ := hquote
  have hpe := hf.pool p' hp'
  rw [hpar.pool] at hpe; cases hpe
  have hmi : s.mint = q.inputMint := by simpa [ListedAt, hpar.entry] using hi
  obtain ⟨rfl, hdi⟩ := hf.ready hnd hsi hpar.entry hmi
  obtain ⟨m', hm', hk, _⟩ := hpar.derived
  have et := hf.total hpar.entry hdi hsync hm' hk a0 ht
  subst et
  have e1 := hf.lstToSol hpar.entry hdi (by rw [hamt]; exact hvv) a1
  subst e1
  have e2 : vAfter = v.min := by
    obtain ⟨w1, ms, _, _, ha⟩ := a2
    exact (flat_lp_prices (hf.pricing p pp hp' hpp)).1 _ _ _ _ _ _ _ ha
  subst e2
  have es := hf.supply p sup m hp' hsup hmint
  subst es
  have e5 : lp = lp' := by
    obtain ⟨x1, x2, x3⟩ := hlp
    obtain ⟨y1, y2, y3⟩ := lpMinted_ok hlp'
    by_cases c1 : m.supply = 0
    · rw [x1 c1, y1 c1]
    · by_cases c2 : total = 0
      · rw [x2 c1 c2, y2 c1 c2]
      · rw [x3 c1 c2, y3 c1 c2]
  subst e5
  refine ⟨p, si, signer, userLst, userLp, feeAcc, res, toRes, toFee, hpar, by rw [hsum, hamt], ?_⟩
  rw [hamt] at hbal; exact hbal

/-- C31, removing liquidity: the quoted `in_amount` of LP tokens is burned from the user's account and the user receives exactly the quoted
`out_amount` of the LST. -/
theorem C31_removeLiquidity (hf : Fresh J L env cs S w) (hnd : (w.ctl.lsts.map LstState.mint).Nodup) (hq : env.Quiet)
    {q : QuoteParams} {Q : Quote} (hquote : S.quoteRemove L q = .ok Q)
    {tx : TxInfo} {accs : List Acc} {args : RemoveLiquidityArgs} {w' : World}
    (ho : ListedAt w args.lstIndex q.outputMint) (hamt : args.lpTokenAmount = q.amount)
    (h : processIx J.cfg L env tx w accs (.removeLiquidity args) = .ok w') :
    ∃ p s signer userLst userLp feeAcc res fee,
      LiqParties J.cfg w accs args.lstIndex p s signer userLst userLp feeAcc res ∧
      ∀ k, bal w'.led k + only userLp.key Q.inAmount k + only res.key (Q.outAmount + fee) k =
        bal w.led k + only userLst.key Q.outAmount k + only feeAcc.key fee k := by
  obtain ⟨p, s, signer, userLst, userLp, feeAcc, res, m, r0, total, v, vAfter, out, fee, hpar, hmint, _, _, a0, ht, hv, a1, _, a2, _, _,
    _, _, hbal, _⟩ := C07_removeLiquidity hq h
  simp only [SPool.quoteRemove, bind_ok, okOr_ok, require_ok, pure_ok, Prod.exists, exists_const] at hquote
  obtain ⟨p', hp', pp, hpp, sup, hsup, so, d_o, hso, t1, res', hsync, v', hv', after, hafter, -, out', hout', _, _, _, _, -, _, _, _,
    _, rfl⟩ := hquote
  have hpe := hf.pool p' hp'
  rw [hpar.pool] at hpe; cases hpe
  have hmo : s.mint = q.outputMint := by simpa [ListedAt, hpar.entry] using ho
  obtain ⟨rfl, hdo⟩ := hf.ready hnd hso hpar.entry hmo
  obtain ⟨m', hm', hk, _⟩ := hpar.derived
  have et := hf.total hpar.entry hdo hsync hm' hk a0 ht
  subst et
  have es := hf.supply p sup m hp' hsup hmint
  subst es
  have e5 : v = v' := by
    obtain ⟨x1, x2⟩ := hv
    obtain ⟨y1, y2⟩ := lpValue_ok hv'
    rw [hamt] at x2
    by_cases c1 : m.supply = 0
    · rw [x1 (.inl c1), y1 (.inl c1)]
    · by_cases c2 : total = 0
      · rw [x1 (.inr c2), y1 (.inr c2)]
      · rw [x2 c1 c2, y2 c1 c2]
  subst e5
  have e1 := hf.redeem hp' hpp hafter a1
  subst e1
  have e2 := hf.solToLst hpar.entry hdo hout' a2
  subst e2
  refine ⟨p, so, signer, userLst, userLp, feeAcc, res, fee, hpar, ?_⟩
  rw [hamt] at hbal; exact hbal

end
/-! ### The hypotheses are met -/

namespace Ex

theorem of_toOption {α : Type} {x : R α} {o : Option α} {a : α} (h : x.toOption = o) (h' : x = .ok a) : o = some a := by
  subst h'; exact h.symm

theorem supply_eq {x : Option Nat} {o : Option Mint} {n : Nat} {m : Mint} (h : x = o.map Mint.supply) (hx : x = some n) (ho : o = some m) :
    m.supply = n := by subst hx ho; injection h with h; exact h.symm

theorem cache_data : (cache (st 7)).data = [some ⟨.wsol, some 36031, 8⟩, some ⟨.lido (some ⟨0, 2, 3⟩), some 16016, 8⟩] := by decide +kernel
theorem cache_pricing : (cache (st 7)).pricing = some ⟨some ⟨305, 25⟩, [(21, some ⟨254, 30, 20⟩), (22, some ⟨254, 40, -10⟩)]⟩ := by decide +kernel
theorem cache_pool : ((cache (st 7)).pool).toOption = (st 7).ctl.pool := by decide +kernel
theorem cache_lsts : ((cache (st 7)).lstList.lsts).toOption = some (st 7).ctl.lsts := by decide +kernel
theorem cache_lsts_ok : (st 7).ctl.lsts.map (fun s => (s.mint, s.solValueCalculator)) = [(21, 31), (22, 32)] := by decide +kernel

/-- The cache of the example, after its two rounds of fetching, shows the chain. -/
theorem cache_fresh : Fresh jup .ex fenv fhist (cache (st 7)) (st 7) where
  pool p h := by exact of_toOption cache_pool h
  lsts l h := by have := of_toOption cache_lsts h; injection this
  supply := by
    intro p n m hp hn hm
    have e : p.lpTokenMint = 20 := by
      have := of_toOption cache_pool hp
      have h2 : (st 7).ctl.pool.map PoolState.lpTokenMint = some 20 := by decide +kernel
      rewrite [this] at h2; injection h2
    have h3 : (cache (st 7)).lpSupply = ((st 7).led.mints 20).map Mint.supply := by decide +kernel
    exact supply_eq h3 hn (e ▸ hm)
  reserves := by
    intro i s d n m k hs hd hn hm hk
    have hl := List.getElem?_eq_some_iff.1 hs
    rw [cache_data] at hd
    match i, hd with
    | 0, hd =>
      injection hd with hd; injection hd with hd; subst hd; injection hn with hn; subst hn
      have h1 : (st 7).ctl.lsts[0]?.bind (fun s => ((st 7).led.mints s.mint).bind fun m => (cfg.ata cfg.poolState m.program s.mint s.poolReservesBump).map
        (bal (st 7).led)) = some 36031 := by decide +kernel
      rw [hs] at h1; simp only [Option.bind_some, hm] at h1
      have hk : cfg.ata cfg.poolState m.program s.mint s.poolReservesBump = some k := hk
      rw [hk] at h1; injection h1
    | 1, hd =>
      injection hd with hd; injection hd with hd; subst hd; injection hn with hn; subst hn
      have h1 : (st 7).ctl.lsts[1]?.bind (fun s => ((st 7).led.mints s.mint).bind fun m => (cfg.ata cfg.poolState m.program s.mint s.poolReservesBump).map
        (bal (st 7).led)) = some 16016 := by decide +kernel
      rw [hs] at h1; simp only [Option.bind_some, hm] at h1
      have hk : cfg.ata cfg.poolState m.program s.mint s.poolReservesBump = some k := hk
      rw [hk] at h1; injection h1
    | i + 2, hd => cases hd
  calcs := by
    intro i s d c hs hd hc
    have hl := cache_lsts_ok
    have hs' : ((st 7).ctl.lsts.map (fun s => (s.mint, s.solValueCalculator)))[i]? = some (s.mint, s.solValueCalculator) := by simp [hs]
    rw [hl] at hs'
    rw [cache_data] at hd
    match i, hd, hs' with
    | 0, hd, hs' =>
      injection hd with hd; injection hd with hd; subst hd
      injection hs' with hs'; injection hs' with h1 h2
      rw [← h1, ← h2]
      injection hc with hc; subst hc
      intro n w ms r l _
      refine ⟨fun a h => (Env.pure_calc.1 h).1, fun a h => (Env.pure_calc.1 h).1⟩
    | 1, hd, hs' =>
      injection hd with hd; injection hd with hd; subst hd
      injection hs' with hs'; injection hs' with h1 h2
      rw [← h1, ← h2]
      have he : (cache (st 7)).epoch = 0 := by decide +kernel
      rw [he] at hc
      injection hc with hc; subst hc
      intro n w ms r l _
      refine ⟨fun a h => (Env.pure_calc.1 h).1, fun a h => (Env.pure_calc.1 h).1⟩
    | i + 2, hd, _ => cases hd
  pricing := by
    intro p pp hp _
    have e : p.pricingProgram = 7 := by
      have := of_toOption cache_pool hp
      have h2 : (st 7).ctl.pool.map PoolState.pricingProgram = some 7 := by decide +kernel
      rewrite [this] at h2; injection h2
    rw [e]; intro n w ms q r l h; exact fenv_priced h
  fees := by
    intro pp m a hp h
    rw [cache_pricing] at hp; injection hp with hp; subst hp
    have h1 : (flatHistory .ex fhist).feesOf fc 21 = some ⟨254, 30, 20⟩ ∧ (flatHistory .ex fhist).feesOf fc 22 = some ⟨254, 40, -10⟩ := by decide +kernel
    simp only [FlatProg.fee, List.find?_cons] at h
    split at h
    · rename_i e
      by_cases c1 : 21 = m
      · subst c1; simp at e; obtain ⟨-, rfl⟩ := e; injection h with h; subst h; exact h1.1
      · by_cases c2 : 22 = m
        · subst c2; simp at e; obtain ⟨-, rfl⟩ := e; injection h with h; subst h; exact h1.2
        · simp [c1, c2] at e
    · cases h
  state := by
    intro pp s hp hs
    rw [cache_pricing] at hp; injection hp with hp; subst hp
    injection hs with hs; subst hs
    decide +kernel

example : ((st 7).ctl.lsts.map LstState.mint).Nodup ∧ fenv.Quiet := ⟨by decide +kernel, Env.pure_quiet⟩

/-- Runs the instruction the library builds for a quote, with no slippage allowed, and reports the quoted amounts and what left the
user's paying account and reached the receiving one. -/
def trade (q : QuoteParams) (src dst : Pubkey) : Option ((Nat × Nat) × (Nat × Nat)) := do
  let Q ← ((cache (st 7)).quote .ex q).toOption
  let t ← ((cache (st 7)).swapIx jup ⟨Q.inAmount, Q.outAmount, q.inputMint, q.outputMint, src, dst, 40⟩ q.exactOut).toOption
  let ix ← (decodeIx t.data).toOption
  let w' ← (processIx cfg .ex fenv ⟨[], 0⟩ (st 7) t.accs ix).toOption
  pure ((Q.inAmount, Q.outAmount), (bal (st 7).led src - bal w'.led src, bal w'.led dst - bal (st 7).led dst))

example : trade ⟨3000, 21, 22, false⟩ 41 42 = some ((3000, 1996), (3000, 1996)) := by decide +kernel
example : trade ⟨3000, 21, 22, true⟩ 41 42 = some ((4511, 3000), (4511, 3000)) := by decide +kernel
example : trade ⟨3000, 22, 20, false⟩ 42 43 = some ((3000, 4495), (3000, 4495)) := by decide +kernel
example : trade ⟨3000, 20, 22, false⟩ 43 42 = some ((3000, 1996), (3000, 1996)) := by decide +kernel

end Ex

end S
