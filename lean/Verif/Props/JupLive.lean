import Verif.Props.JupQuote
import Verif.Proofs.LiveRun
import Verif.Props.Conservation
import Verif.Proofs.History
/-
C54: a trade quoted off chain executes on chain.
-/
set_option autoImplicit false
namespace S

/-! ### Specification -/

/-- `k` is a token account of `mint`, not one of the controller's. -/
structure Wallet (cfg : Cfg) (l : Ledger) (k mint : Pubkey) (a : TokenAcc) : Prop where
  tok : l.tok k = some a
  program : ∀ m, l.mints mint = some m → a.program = m.program
  mint : a.mint = mint
  notPool : a.owner ≠ cfg.poolState
  notFees : a.owner ≠ cfg.protocolFee

/-- The cache shows the chain (`Fresh`), belongs to its list (`Aligned`, C45), knows each mint's token program, and the programs it quotes
for answer when they are called with the accounts the library lists for them: a calculator whenever the cached formula has a value, the pricing
program whenever the flat-fee program does. -/
structure Ready (J : JupCfg) (L : RatioLib) (env : Env J.cfg) (cs : List (FlatCall J.fc)) (S : SPool) (w : World) : Prop extends
    Fresh J L env cs S w where
  aligned : S.Aligned J
  tokenPrograms : ∀ (i : Nat) s d m, w.ctl.lsts[i]? = some s → S.data[i]? = some (some d) → w.led.mints s.mint = some m →
    d.tokenProgram = m.program
  serves : ∀ (i : Nat) s d c, w.ctl.lsts[i]? = some s → S.data[i]? = some (some d) → d.solCalc.usable S.epoch = .ok c →
    c.Usable ∧ env.Serves L ⟨s.solValueCalculator, d.solCalc.ixAccounts J⟩ c
  answers : ∀ p, S.pool = .ok p → ∃ v : FlatView J.fc, ∀ n w' ms q r F',
    flatProcess L v (flatHistory L cs) ms q.flat = .ok (F', some r) → env.askPrice n w' p.pricingProgram ms q = .ok (r, w'.led)

/-- The pool accepts trades. -/
def Active (w : World) : Prop := ∃ p, w.ctl.pool = some p ∧ p.isDisabled = 0 ∧ p.isRebalancing = 0

/-- After `amount` of `mint` has been deposited the cached calculator still values the reserves, and the pool's total fits a u64. -/
def SPool.DepositFits (L : RatioLib) (S : SPool) (mint : Pubkey) (amount : Nat) : Prop :=
  ∀ p s d n, S.pool = .ok p → S.findReady mint = .ok (s, d) → d.reserves = some n →
    ∃ r, d.solCalc.lstToSol L S.epoch (n + amount) = .ok r ∧ p.totalSolValue - s.solValue + r.min < U64

/-- After `amount` of the input LST has been paid in, the cached calculators still value the reserves, and the pool's total fits a u64. -/
def SPool.SwapFits (L : RatioLib) (S : SPool) (mi mo : Pubkey) (amount : Nat) : Prop :=
  ∀ p s d n s' d' n', S.pool = .ok p → S.findReady mi = .ok (s, d) → S.findReady mo = .ok (s', d') → d.reserves = some n →
    d'.reserves = some n' → ∃ r r', d.solCalc.lstToSol L S.epoch (n + amount) = .ok r ∧ d'.solCalc.lstToSol L S.epoch n' = .ok r' ∧
      p.totalSolValue - s.solValue - s'.solValue + r'.min + r.min < U64

/-- With `amount` of the input LST more and `paid` of the output LST less, the reserves of the two are worth no less to the cached
calculators. -/
def SPool.Keeps (L : RatioLib) (S : SPool) (mi mo : Pubkey) (amount paid : Nat) : Prop :=
  ∀ s d n s' d' n', S.findReady mi = .ok (s, d) → S.findReady mo = .ok (s', d') → d.reserves = some n → d'.reserves = some n' →
    ∀ a b a' b', d.solCalc.lstToSol L S.epoch n = .ok a → d'.solCalc.lstToSol L S.epoch n' = .ok b →
      d.solCalc.lstToSol L S.epoch (n + amount) = .ok a' → d'.solCalc.lstToSol L S.epoch (n' - paid) = .ok b' →
      a.min + b.min ≤ a'.min + b'.min

/-- The SOL values paid in and out of the quoted swap; their difference is the trading fee. -/
def SPool.SwapValues (L : RatioLib) (S : SPool) (q : QuoteParams) (inSol outSol : Nat) : Prop :=
  ∃ pp s d s' d', S.pricing = some pp ∧ S.findReady q.inputMint = .ok (s, d) ∧ S.findReady q.outputMint = .ok (s', d') ∧
    if q.exactOut then ∃ r, d'.solCalc.lstToSol L S.epoch q.amount = .ok r ∧ outSol = r.max ∧
        pp.quoteExactOut L q.inputMint q.outputMint outSol = .ok inSol
      else ∃ r, d.solCalc.lstToSol L S.epoch q.amount = .ok r ∧ inSol = r.min ∧
        pp.quoteExactIn L q.inputMint q.outputMint inSol = .ok outSol

/-- `fee` is the protocol's part of the fee of the quoted swap, in the output LST. -/
def SPool.ProtocolFee (L : RatioLib) (S : SPool) (q : QuoteParams) (Q : Quote) (fee : Nat) : Prop :=
  ∃ p inSol outSol, S.pool = .ok p ∧ S.SwapValues L q inSol outSol ∧
    calcSwapProtocolFees L inSol outSol Q.outAmount p.tradingProtocolFeeBps = .ok fee

/-! ### Proofs -/

theorem Ledger.Backed.one {l : Ledger} (hb : l.Backed) (k : Pubkey) (a : TokenAcc) (m : Mint) (hk : l.tok k = some a)
    (hm : l.mints a.mint = some m) : a.amount ≤ m.supply := by
  have := hb a.mint [k] (by simp)
  simpa [balOf, supplyOf, hk, hm] using this

theorem Ledger.Backed.two {l : Ledger} (hb : l.Backed) (k k' : Pubkey) (a b : TokenAcc) (m : Mint) (hne : k ≠ k') (hk : l.tok k = some a)
    (hk' : l.tok k' = some b) (hab : a.mint = b.mint) (hm : l.mints a.mint = some m) : a.amount + b.amount ≤ m.supply := by
  have := hb a.mint [k, k'] (by simp [hne])
  rw [hab] at hm
  simpa [balOf, supplyOf, hk, hk', hm, hab] using this

theorem floorApply_u64 {L : RatioLib} {n d x r : Nat} (h : floorApply L n d x = .ok r) : r < U64 := by
  by_cases hd : d = 0
  · simp only [floorApply, hd, if_true] at h
    exact L.applyDenom0_u64 _ _ _ h
  · rw [floorApply_ok' hd] at h; omega

theorem KnownCalc.ixAccounts_head (J : JupCfg) (c : KnownCalc) : ∃ r, c.ixAccounts J = roMeta (c.lstMint J) :: r := by
  cases c <;> exact ⟨_, rfl⟩

section
variable {J : JupCfg} {L : RatioLib} {env : Env J.cfg} {cs : List (FlatCall J.fc)} {S : SPool} {w : World}

theorem feesOf_addr {fc : FlatCfg} {cs : List (FlatCall fc)} {m : Pubkey} {a : FeeAccount}
    (h : (flatHistory L cs).feesOf fc m = some a) :
    fc.feeAddr m a.bump = some (fc.findFee m).1 ∧ (flatHistory L cs).fees (fc.findFee m).1 = some a := by
  have hb := C26_bounds (L := L) cs
  obtain ⟨m', hm'⟩ := hb.addr _ _ h
  have e : m' = m := fc.feeAddr_inj (b := (fc.findFee m').2) (b' := (fc.findFee m).2) (k := (fc.findFee m).1)
    (by rw [fc.findFee_addr, hm']) (fc.findFee_addr m)
  subst e
  refine ⟨?_, h⟩
  have := fc.findFee_addr m'
  rw [hm'] at this ⊢; exact this

theorem Ready.swapFees (hr : Ready J L env cs S w) {pp : FlatProg} (hpp : S.pricing = some pp) {mi mo : Pubkey} {i o : FeeAccount}
    (hi : pp.fee mi = .ok i) (ho : pp.fee mo = .ok o) {pm ms : List Acc} (hpm : pp.swapAccounts J.fc mi mo = .ok pm)
    (hs : SeenAs pm ms) (v : FlatView J.fc) : verifyPriceSwap v (flatHistory L cs) ms = .ok (i, o) := by
  obtain ⟨ai, fi⟩ := feesOf_addr (hr.fees pp mi i hpp hi)
  obtain ⟨ao, fo⟩ := feesOf_addr (hr.fees pp mo o hpp ho)
  simp only [FlatProg.swapAccounts, hi, ho, bind_ok, okOr_ok, pure_ok] at hpm
  obtain ⟨ia, hia, oa, hoa, rfl⟩ := hpm
  rw [ai] at hia; cases hia
  rw [ao] at hoa; cases hoa
  obtain ⟨x1, l1, rfl, e1, hs⟩ := hs.cons_inv
  obtain ⟨x2, l2, rfl, e2, hs⟩ := hs.cons_inv
  obtain ⟨x3, l3, rfl, e3, hs⟩ := hs.cons_inv
  obtain ⟨x4, l4, rfl, e4, hs⟩ := hs.cons_inv
  have k1 : x1.key = mi := e1.key
  have k2 : x2.key = mo := e2.key
  have k3 : x3.key = (J.fc.findFee mi).1 := e3.key
  have k4 : x4.key = (J.fc.findFee mo).1 := e4.key
  simp only [verifyPriceSwap, bind_ok, readFee_ok, okOr_ok, checkKeys_ok, List.forall_mem_cons, exists_const, pure_ok, k1, k2, k3, k4,
    fi, fo, Option.some_or, Option.some.injEq]
  exact ⟨i, rfl, o, rfl, _, ai, _, ao, ⟨rfl, rfl, by simp⟩, rfl⟩

theorem Ready.quotesIn (hr : Ready J L env cs S w) {p : PoolState} (hp : S.pool = .ok p) {pp : FlatProg} (hpp : S.pricing = some pp)
    {mi mo : Pubkey} {pm : List Acc} (hpm : pp.swapAccounts J.fc mi mo = .ok pm) {v r : Nat} (h : pp.quoteExactIn L mi mo v = .ok r) (a : Nat) :
    env.Quotes ⟨p.pricingProgram, pm⟩ (.exactIn a v) r := by
  obtain ⟨view, hv⟩ := hr.answers p hp
  intro n w' ms hs
  simp only [FlatProg.quoteExactIn, bind_ok] at h
  obtain ⟨i, hi, o, ho, h⟩ := h
  refine hv n w' ms _ r (flatHistory L cs) ?_
  simp only [PriceReq.flat, flatProcess, flatExactIn, hr.swapFees hpp hi ho hpm hs view, bind, Except.bind, h, pure, Except.pure]

theorem Ready.quotesOut (hr : Ready J L env cs S w) {p : PoolState} (hp : S.pool = .ok p) {pp : FlatProg} (hpp : S.pricing = some pp)
    {mi mo : Pubkey} {pm : List Acc} (hpm : pp.swapAccounts J.fc mi mo = .ok pm) {v r : Nat} (h : pp.quoteExactOut L mi mo v = .ok r) (a : Nat) :
    env.Quotes ⟨p.pricingProgram, pm⟩ (.exactOut a v) r := by
  obtain ⟨view, hv⟩ := hr.answers p hp
  intro n w' ms hs
  simp only [FlatProg.quoteExactOut, bind_ok] at h
  obtain ⟨i, hi, o, ho, h⟩ := h
  refine hv n w' ms _ r (flatHistory L cs) ?_
  simp only [PriceReq.flat, flatProcess, flatExactOut, hr.swapFees hpp hi ho hpm hs view, bind, Except.bind, h, pure, Except.pure]

theorem Ready.quotesMint (hr : Ready J L env cs S w) {p : PoolState} (hp : S.pool = .ok p) (ms : List Acc) (a v : Nat) :
    env.Quotes ⟨p.pricingProgram, ms⟩ (.lpTokensToMint a v) v := by
  obtain ⟨view, hv⟩ := hr.answers p hp
  intro n w' ms _
  exact hv n w' ms _ v (flatHistory L cs) rfl

theorem Ready.quotesRedeem (hr : Ready J L env cs S w) {p : PoolState} (hp : S.pool = .ok p) {pp : FlatProg} (hpp : S.pricing = some pp)
    {mint : Pubkey} {v r : Nat} (h : pp.quoteRedeem v = .ok r) (a : Nat) :
    env.Quotes ⟨p.pricingProgram, flatRedeemAccounts J.fc mint⟩ (.lpTokensToRedeem a v) r := by
  obtain ⟨view, hv⟩ := hr.answers p hp
  intro n w' ms hs
  simp only [FlatProg.quoteRedeem, bind_ok, okOr_ok] at h
  obtain ⟨s, hst, h⟩ := h
  have hst := hr.state pp s hpp hst
  obtain ⟨x1, l1, rfl, e1, hs⟩ := hs.cons_inv
  obtain ⟨x2, l2, rfl, e2, hs⟩ := hs.cons_inv
  refine hv n w' _ _ r (flatHistory L cs) ?_
  have k2 : x2.key = J.fc.stateId := e2.key
  have : flatRedeem J.fc (flatHistory L cs) (x1 :: x2 :: l2) v = .ok r := by
    simp only [flatRedeem, bind_ok, checkKeys_ok, List.forall_mem_cons, exists_const, okOr_ok, hst]
    exact ⟨⟨k2, by simp⟩, s, rfl, h⟩
  simp only [PriceReq.flat, flatProcess, this, bind, Except.bind, pure, Except.pure]

/-! ### Liquidity -/

theorem poolReserves_some {cfg : Cfg} {s : LstState} {prog k : Pubkey} (h : poolReserves cfg s prog = .ok k) :
    cfg.ata cfg.poolState prog s.mint s.poolReservesBump = some k := poolReserves_ok.1 h

theorem liq_setup (hr : Ready J L env cs S w) (hinv : Inv J.cfg w) (hact : Active w) {p : SwapParams} {remove : Bool} {pm : List Acc}
    {r : LiqRequest} {pool : PoolState} {lsts : List LstState} {k : LiqKeys} {i : Nat} {c pr : Pubkey} {mint : Pubkey}
    (hmint : (if remove then p.destinationMint else p.sourceMint) = mint)
    (hreq : S.liqRequest J p remove pm = .ok r) (hpool : S.pool = .ok pool) (hl : S.lstList.lsts = .ok lsts)
    (hres : resolveLiq J.cfg pool lsts r.signer r.userLst r.userLp r.mint = .ok (k, i, c, pr))
    (hpm : ∃ x, pm = roMeta mint :: x) (hne : mint ≠ pool.lpTokenMint)
    {ul lp : TokenAcc} (hul : Wallet J.cfg w.led (if remove then p.destinationTokenAccount else p.sourceTokenAccount) mint ul)
    (hlp : Wallet J.cfg w.led (if remove then p.sourceTokenAccount else p.destinationTokenAccount) pool.lpTokenMint lp) :
    ∃ s d m lm ra fa, w.ctl.lsts[i]? = some s ∧ s.mint = mint ∧ S.data[i]? = some (some d) ∧ r.calcMetas = d.solCalc.ixAccounts J ∧
      r.priceMetas = pm ∧ c = s.solValueCalculator ∧ pr = pool.pricingProgram ∧ k.signer = p.tokenTransferAuthority ∧
      LiqKeysOk J.cfg w k i ⟨c, r.calcMetas⟩ ⟨pr, r.priceMetas⟩ pool s ∧ LiqLedger w.led k m lm ra fa ul lp ∧
      J.cfg.ata J.cfg.poolState m.program s.mint s.poolReservesBump = some k.poolReserves ∧ w.led.mints s.mint = some m ∧
      w.led.mints pool.lpTokenMint = some lm := by
  simp only [SPool.liqRequest, hmint, bind_ok, okOr_ok, pure_ok, Prod.exists] at hreq
  obtain ⟨s, d, hsd, pp, hpp, rfl⟩ := hreq
  simp only [resolveLiq, bind_ok, Prod.exists, pure_ok, Prod.mk.injEq, poolReserves_ok, feeAccumulator_ok] at hres
  obtain ⟨i', s', hf, res, hres, fee, hfee, rfl, rfl, rfl, rfl⟩ := hres
  have hlw := hr.lsts lsts hl
  subst hlw
  obtain ⟨hsi, hsm, -⟩ := findLst_ok.1 hf
  obtain ⟨rfl, hd⟩ := hr.ready hinv.ctl.mints hsd hsi hsm
  obtain ⟨m, rk, ak, ra, fa, la⟩ := hinv.accs s (List.mem_of_getElem? hsi)
  have htp := hr.tokenPrograms i' s d m hsi hd la.mint
  have hpw := hr.pool pool hpool
  obtain ⟨lm, hlm, hlmp, -, hlma, -⟩ := hinv.lp pool hpw
  obtain ⟨pw, hpw', hdis, hreb⟩ := hact
  rw [hpw] at hpw'; cases hpw'
  obtain ⟨_, hal, _, hal3⟩ := hr.aligned
  rw [hl] at hal; cases hal
  obtain ⟨hcm, -⟩ := hal3 i' s d hsi hd
  rw [htp] at hres hfee
  rw [la.res_key] at hres; cases hres
  rw [la.acc_key] at hfee; cases hfee
  obtain ⟨rest, hrest⟩ := d.solCalc.ixAccounts_head J
  rw [hcm, hsm] at hrest
  refine ⟨s, d, m, lm, ra, fa, hsi, hsm, hd, rfl, rfl, rfl, rfl, rfl, ?_, ?_, la.res_key, la.mint, hlm⟩
  · exact
      { poolKey := rfl, listKey := rfl, lpProg := rfl, lpMint := rfl, pool := hpw, notReb := hreb, notDis := hdis, entry := hsi, mint := hsm
        prog := ⟨m, by rw [← hsm]; exact la.mint, htp.symm⟩
        res := by rw [htp]; exact la.res_key
        accum := by rw [htp]; exact la.acc_key
        calcProg := rfl, pricingProg := rfl
        calcMetas := ⟨rest, hrest⟩
        pricingMetas := hpm }
  · have hm' : w.led.mints mint = some m := by rw [← hsm]; exact la.mint
    exact
      { mint := hm', mprog := htp.symm, lpMint := hlm, lpProg := hlmp, lpAuth := hlma
        res := ⟨la.res, by rw [htp]; exact la.ra_prog, by rw [← hsm]; exact la.ra_mint⟩
        resOwner := la.ra_owner
        accum := ⟨la.acc, by rw [htp]; exact la.fa_prog, by rw [← hsm]; exact la.fa_mint⟩
        userLst := ⟨hul.tok, by rw [htp]; exact hul.program m hm', hul.mint⟩
        userLp := ⟨hlp.tok, (hlp.program lm hlm).trans hlmp, hlp.mint⟩
        resNe := by
          intro e
          have e : res = fee := e
          subst e
          exact J.cfg.pool_ne_fee (J.cfg.ata_inj la.res_key la.acc_key).1
        userNe := by
          constructor
          · intro e
            have h := hul.tok
            simp only at e
            rw [e] at h
            rw [la.res] at h; cases h
            exact hul.notPool la.ra_owner
          · intro e
            have h := hul.tok
            simp only at e
            rw [e] at h
            rw [la.acc] at h; cases h
            exact hul.notFees la.fa_owner
        mintNe := hne }

/-- A u64 bound from the supply. -/
theorem Ledger.Backed.room {cfg : Cfg} {l : Ledger} (hb : l.Backed) (hwf : l.Wf cfg) {k k' mint : Pubkey} {a b : TokenAcc} {m : Mint}
    (hne : k ≠ k') (ha : l.tok k = some a) (hb' : l.tok k' = some b) (ham : a.mint = mint) (hbm : b.mint = mint) (hm : l.mints mint = some m) :
    a.amount + b.amount < U64 := by
  have h1 := hb.two k k' a b m hne ha hb' (ham.trans hbm.symm) (by rw [ham]; exact hm)
  have h2 := hwf.mint_u64 _ _ hm
  omega

theorem swapIx_remove {pool : PoolState} (hpool : S.pool = .ok pool) {p : SwapParams} {eo : Bool} {ix : TopIx}
    (h : S.swapIx J p eo = .ok ix) (hm : p.sourceMint = pool.lpTokenMint) : S.removeIx J p = .ok ix := by
  simp only [SPool.swapIx, bind_ok] at h
  obtain ⟨p', hp', h⟩ := h
  rw [hpool] at hp'; cases hp'
  rw [if_pos hm] at h
  split at h
  · cases h
  · exact h

theorem swapIx_add {pool : PoolState} (hpool : S.pool = .ok pool) {p : SwapParams} {eo : Bool} {ix : TopIx}
    (h : S.swapIx J p eo = .ok ix) (hn : p.sourceMint ≠ pool.lpTokenMint) (hm : p.destinationMint = pool.lpTokenMint) :
    S.addIx J p = .ok ix := by
  simp only [SPool.swapIx, bind_ok] at h
  obtain ⟨p', hp', h⟩ := h
  rw [hpool] at hp'; cases hp'
  rw [if_neg hn, if_pos hm] at h
  split at h
  · cases h
  · exact h

theorem swapIx_swap {pool : PoolState} (hpool : S.pool = .ok pool) {p : SwapParams} {eo : Bool} {ix : TopIx}
    (h : S.swapIx J p eo = .ok ix) (hn : p.sourceMint ≠ pool.lpTokenMint) (hm : p.destinationMint ≠ pool.lpTokenMint) :
    S.swapIx' J p eo = .ok ix := by
  simp only [SPool.swapIx, bind_ok] at h
  obtain ⟨p', hp', h⟩ := h
  rw [hpool] at hp'; cases hp'
  rwa [if_neg hn, if_neg hm] at h

/-- C54, redeeming LP tokens: a quoted redemption executes. If the library quotes a redemption of LP tokens for a positive amount of an LST and
builds the instruction for it, with the quoted output as the minimum, then the program accepts the instruction, on the chain state that the cache
shows, from a user holding the LP tokens. -/
theorem C54_removeLiquidity (hr : Ready J L env cs S w) (hreach : Reachable J.cfg L w) (hb : w.led.Backed) (hact : Active w)
    {pool : PoolState} (hpool : S.pool = .ok pool) {q : QuoteParams} {Q : Quote}
    (hin : q.inputMint = pool.lpTokenMint) (hout : q.outputMint ≠ pool.lpTokenMint)
    (hquote : S.quote L q = .ok Q) (hpos : 0 < Q.outAmount) (hamt : 0 < q.amount)
    {src dst signer : Pubkey} {ix : TopIx}
    (hix : S.swapIx J ⟨Q.inAmount, Q.outAmount, q.inputMint, q.outputMint, src, dst, signer⟩ q.exactOut = .ok ix)
    {ul lp : TokenAcc} (hul : Wallet J.cfg w.led dst q.outputMint ul) (hlp : Wallet J.cfg w.led src pool.lpTokenMint lp)
    (hown : lp.owner = signer) (hen : q.amount ≤ lp.amount)
    {accs : List Acc} (hseen : SeenAs ix.accs accs) (tx : TxInfo) :
    ∃ w', processInstruction J.cfg L env tx w ix.program accs ix.data = .ok w' := by
  have hinv := hreach.inv
  simp only [SPool.quote, hpool, hin, if_true, bind, Except.bind] at hquote
  split at hquote
  · cases hquote
  simp only [SPool.quoteRemove, bind_ok, okOr_ok, require_ok, pure_ok, Prod.exists, exists_const, addU64_ok] at hquote
  obtain ⟨p', hp', pp, hpp, sup, hsup, so, d_o, hso, t1, res, happ, v, hv, after, hafter, hle, out, hout', fee, hfee, tot, ⟨rfl, hfit⟩, hen', fa', fp', fq', hqf, rfl⟩ := hquote
  rw [hpool] at hp'; cases hp'
  have hix := swapIx_remove hpool hix hin
  simp only [SPool.removeIx, bind_ok, Prod.exists, removeLiquidityByMint] at hix
  obtain ⟨r, hreq, p', hp', lsts, hl, k, i, c, pr, hres, hix⟩ := hix
  rw [hpool] at hp'; cases hp'
  obtain ⟨s, d, m, lm, ra, fa, hsi, hsm, hd, hcm, hpm, hc, hprp, hsig, hk, hled, hata, hmm, hlm⟩ :=
    liq_setup hr hinv hact rfl hreq hpool hl hres ⟨_, rfl⟩ hout hul hlp
  simp only [removeLiquidityIx, bind_ok, Prod.exists, indexToU32_ok, extendOne_ok, pure_ok] at hix
  obtain ⟨i', ⟨hiu, hie⟩, a1, n1, ⟨hn1, rfl, rfl⟩, a2, n2, ⟨hn2, rfl, rfl⟩, rfl⟩ := hix
  obtain rfl : i = i' := hie.symm
  obtain ⟨hse, hd'⟩ := hr.ready hinv.ctl.mints hso hsi hsm
  obtain rfl : s = so := hse.symm
  rw [hd] at hd'
  obtain rfl : d = d_o := by injection hd' with hd'; injection hd'
  simp only [SPool.applySync, bind_ok, okOr_ok, pure_ok, Prod.mk.injEq, syncedTotal, subU64_ok, addU64_ok] at happ
  obtain ⟨n0, hn, v0, hv0, t', ⟨x, ⟨rfl, hxle⟩, rfl, hxf⟩, rfl, rfl⟩ := happ
  obtain ⟨c0, hc0, hv0⟩ := KnownCalc.lstToSol_ok hv0
  obtain ⟨c1, hc1, hout'⟩ := KnownCalc.solToLst_ok hout'
  rw [hc0] at hc1; cases hc1
  obtain ⟨hus, hserves⟩ := hr.serves i s d c0 hsi hd hc0
  have hbal := hr.reserves i s d n0 m _ hsi hd hn hmm hata
  rw [bal, hled.res.tok] at hbal
  have hbal : ra.amount = n0 := hbal
  subst hbal
  have hls := hr.supply pool sup lm hpool hsup hlm
  subst hls
  have hvu : v < U64 := by
    simp only [calcLpTokensSolValue] at hv
    split at hv
    · simp only [pure_ok] at hv; subst hv; decide
    · exact floorApply_u64 hv
  have hlpt : w.led.tok k.userLp = some lp := hled.userLp.tok
  have hub := hinv.wf.tok_u64 _ _ hlpt
  have hlpsup := hb.one _ _ _ hlpt (by rw [hled.userLp.mint]; exact hled.lpMint)
  have room1 := hb.room hinv.wf hled.userNe.1 hled.userLst.tok hled.res.tok hled.userLst.mint hled.res.mint hled.mint
  have room2 := hb.room hinv.wf hled.resNe hled.res.tok hled.accum.tok hled.res.mint hled.accum.mint hled.mint
  have hlive := remove_live (accs := accs) (minOut := out.min) hk hled hinv.wf hus (by rw [hcm, hc]; exact hserves)
    (by rw [hpm, hprp]; exact hr.quotesRedeem hpool hpp hafter q.amount) (by omega) hxle hv0 hxf hv hle hvu hout' hfee
    (by simp only at hpos; omega) (Nat.le_refl _) (hown.trans hsig.symm) hen (by omega) hen' (by omega) (by omega)
    (by simpa using hseen)
  have hoe := AnyCalc.solToLst_u64 hus (Nat.lt_of_le_of_lt hle hvu) hout'
  have hdec : decodeIx (overwrite (Ix.removeLiquidity ⟨0, i, q.amount, out.min⟩).encode
      (Ix.removeLiquidity ⟨r.calcMetas.length, i, q.amount, out.min⟩).encode) =
      .ok (.removeLiquidity ⟨r.calcMetas.length, i, q.amount, out.min⟩) := by
    rw [overwrite_same (encode_length_remove _ _)]
    apply C38_roundtrip
    simp only [Ix.Wf]
    refine ⟨by omega, hiu, ?_, ?_⟩ <;> unfold U64 at * <;> omega
  rw [processInstruction_of_decode L env tx w accs hdec]
  exact hlive

theorem addFees_zero {amount v bps : Nat} (hv : v ≠ 0) (hb : bps ≤ 10000) :
    calcAddLiquidityProtocolFees L amount v v bps = .ok ⟨amount, 0⟩ := by
  have hc : bpsCeilFeeApply bps 0 = .ok ⟨0, 0⟩ := by
    have h1 : feeNew bps BPS = .ok () := feeNew_ok.2 hb
    have h2 : ceilFee bps BPS 0 = 0 := by simp [ceilFee, cdiv, BPS]
    simp [bpsCeilFeeApply, h1, ceilFeeApply, h2, subU64, bind, Except.bind, pure, Except.pure]
  simp [calcAddLiquidityProtocolFees, hc, floorApply, hv, toU64, subU64, bind, Except.bind, pure, Except.pure, U64]

/-- C54, adding liquidity: a quoted deposit that mints a positive amount of LP tokens executes, from a user holding the LST, as long as the LP
supply, and the value of the pool with the deposit, fit in 64 bits. -/
theorem C54_addLiquidity (hr : Ready J L env cs S w) (hreach : Reachable J.cfg L w) (hb : w.led.Backed) (hact : Active w)
    {pool : PoolState} (hpool : S.pool = .ok pool) {q : QuoteParams} {Q : Quote}
    (hin : q.inputMint ≠ pool.lpTokenMint) (hout : q.outputMint = pool.lpTokenMint)
    (hquote : S.quote L q = .ok Q) (hpos : 0 < Q.outAmount) (hamt : 0 < q.amount)
    (hfits : S.DepositFits L q.inputMint q.amount) (hroom : ∀ n, S.lpSupply = some n → n + Q.outAmount < U64)
    {src dst signer : Pubkey} {ix : TopIx}
    (hix : S.swapIx J ⟨Q.inAmount, Q.outAmount, q.inputMint, q.outputMint, src, dst, signer⟩ q.exactOut = .ok ix)
    {ul lp : TokenAcc} (hul : Wallet J.cfg w.led src q.inputMint ul) (hlp : Wallet J.cfg w.led dst pool.lpTokenMint lp)
    (hown : ul.owner = signer) (hen : q.amount ≤ ul.amount)
    {accs : List Acc} (hseen : SeenAs ix.accs accs) (tx : TxInfo) :
    ∃ w', processInstruction J.cfg L env tx w ix.program accs ix.data = .ok w' := by
  have hinv := hreach.inv
  simp only [SPool.quote, hpool, hin, hout, if_true, if_false, bind, Except.bind] at hquote
  split at hquote
  · cases hquote
  simp only [SPool.quoteAdd, bind_ok, okOr_ok, require_ok, pure_ok, Prod.exists, exists_const] at hquote
  obtain ⟨p', hp', pp, hpp, sup, hsup, so, d_o, hso, hien, t1, res, happ, v, hv, -, mint, hmint, fa', fp', fq', hqf, rfl⟩ := hquote
  rw [hpool] at hp'; cases hp'
  have hix := swapIx_add hpool hix hin hout
  simp only [SPool.addIx, bind_ok, Prod.exists, addLiquidityByMint] at hix
  obtain ⟨r, hreq, p', hp', lsts, hl, k, i, c, pr, hres, hix⟩ := hix
  rw [hpool] at hp'; cases hp'
  obtain ⟨s, d, m, lm, ra, fa, hsi, hsm, hd, hcm, hpm, hc, hprp, hsig, hk, hled, hata, hmm, hlm⟩ :=
    liq_setup hr hinv hact rfl hreq hpool hl hres ⟨_, rfl⟩ hin hul hlp
  simp only [addLiquidityIx, bind_ok, Prod.exists, indexToU32_ok, extendOne_ok, pure_ok] at hix
  obtain ⟨i', ⟨hiu, hie⟩, a1, n1, ⟨hn1, rfl, rfl⟩, a2, n2, ⟨hn2, rfl, rfl⟩, rfl⟩ := hix
  obtain rfl : i = i' := hie.symm
  obtain ⟨hse, hd'⟩ := hr.ready hinv.ctl.mints hso hsi hsm
  obtain rfl : s = so := hse.symm
  rw [hd] at hd'
  obtain rfl : d = d_o := by injection hd' with hd'; injection hd'
  simp only [SPool.applySync, bind_ok, okOr_ok, pure_ok, Prod.mk.injEq, syncedTotal, subU64_ok, addU64_ok] at happ
  obtain ⟨n0, hn, v0, hv0, t', ⟨x, ⟨rfl, hxle⟩, rfl, hxf⟩, rfl, rfl⟩ := happ
  obtain ⟨r3, hr3, hfit3⟩ := hfits pool s d n0 hpool hso hn
  obtain ⟨c0, hc0, hv0⟩ := KnownCalc.lstToSol_ok hv0
  obtain ⟨c1, hc1, hv⟩ := KnownCalc.lstToSol_ok hv
  rw [hc0] at hc1; cases hc1
  obtain ⟨c1, hc1, hr3⟩ := KnownCalc.lstToSol_ok hr3
  rw [hc0] at hc1; cases hc1
  obtain ⟨hus, hserves⟩ := hr.serves i s d c0 hsi hd hc0
  have hbal := hr.reserves i s d n0 m _ hsi hd hn hmm hata
  rw [bal, hled.res.tok] at hbal
  have hbal : ra.amount = n0 := hbal
  subst hbal
  have hls := hr.supply pool sup lm hpool hsup hlm
  subst hls
  have hvne : v.min ≠ 0 := by
    simp only [SPool.quoteFees, bind_ok, require_ok, exists_const] at hqf
    obtain ⟨_, _, h, _⟩ := hqf; exact h
  have hfees := addFees_zero (L := L) (amount := q.amount) hvne (hinv.ctl.fees pool hk.pool).2
  have hroom := hroom _ hsup
  simp only at hroom
  have hult : w.led.tok k.userLst = some ul := hled.userLst.tok
  have hub := hinv.wf.tok_u64 _ _ hult
  have hfab := hinv.wf.tok_u64 _ _ hled.accum.tok
  have hlpsup := hb.one _ _ _ hled.userLp.tok (by rw [hled.userLp.mint]; exact hled.lpMint)
  have room1 := hb.room hinv.wf hled.userNe.1 hled.userLst.tok hled.res.tok hled.userLst.mint hled.res.mint hled.mint
  have hlive := add_live (accs := accs) (minOut := mint) hk hien hled hinv.wf hus (by rw [hcm, hc]; exact hserves)
    (by rw [hpm, hprp]; exact hr.quotesMint hpool _ q.amount _) (by omega) (by omega) hxle hv0 hxf hv (Nat.le_refl _) hfees hmint
    (by simp only at hpos ⊢; omega) (Nat.le_refl _) (hown.trans hsig.symm) hen (by simp only; omega) (by simp only; omega) (by omega) hroom
    hr3 hfit3 (by simpa using hseen)
  have hdec : decodeIx (overwrite (Ix.addLiquidity ⟨0, i, q.amount, mint⟩).encode
      (Ix.addLiquidity ⟨r.calcMetas.length, i, q.amount, mint⟩).encode) =
      .ok (.addLiquidity ⟨r.calcMetas.length, i, q.amount, mint⟩) := by
    rw [overwrite_same (encode_length_add _ _)]
    apply C38_roundtrip
    simp only [Ix.Wf]
    refine ⟨by omega, hiu, ?_, ?_⟩ <;> unfold U64 at * <;> omega
  rw [processInstruction_of_decode L env tx w accs hdec]
  exact hlive

/-! ### Swaps -/

theorem FlatProg.swapAccounts_head {fc : FlatCfg} {pp : FlatProg} {mi mo : Pubkey} {pm : List Acc} (h : pp.swapAccounts fc mi mo = .ok pm) :
    ∃ r, pm = roMeta mi :: roMeta mo :: r := by
  simp only [FlatProg.swapAccounts] at h
  split at h
  · simp only [bind_ok, okOr_ok, pure_ok] at h
    obtain ⟨_, _, _, _, rfl⟩ := h
    exact ⟨_, rfl⟩
  · simp only [pure_ok] at h; subst h; exact ⟨_, rfl⟩

theorem swap_setup (hr : Ready J L env cs S w) (hinv : Inv J.cfg w) (hact : Active w) {p : SwapParams}
    {r : SwapRequest} {pool : PoolState} {lsts : List LstState} {k : SwapKeys} {f : Found} {si so : LstState} {di d_o : LstData}
    (hsi : S.findReady p.sourceMint = .ok (si, di)) (hso : S.findReady p.destinationMint = .ok (so, d_o)) (hien : si.isInputDisabled = 0)
    {pp : FlatProg} (hpp : S.pricing = some pp)
    (hreq : S.swapRequest J p pool.pricingProgram = .ok r) (hpool : S.pool = .ok pool) (hl : S.lstList.lsts = .ok lsts)
    (hres : resolveSwap J.cfg lsts r.signer r.srcAcc r.dstAcc r.src r.dst = .ok (k, f)) (hne : p.sourceMint ≠ p.destinationMint)
    {us ud : TokenAcc} (hus : Wallet J.cfg w.led p.sourceTokenAccount p.sourceMint us)
    (hud : Wallet J.cfg w.led p.destinationTokenAccount p.destinationMint ud) :
    ∃ ms md rs rd fa, w.ctl.lsts[f.srcIdx]? = some si ∧ w.ctl.lsts[f.dstIdx]? = some so ∧ S.data[f.srcIdx]? = some (some di) ∧
      S.data[f.dstIdx]? = some (some d_o) ∧ r.srcMetas = di.solCalc.ixAccounts J ∧ r.dstMetas = d_o.solCalc.ixAccounts J ∧
      f.srcCalc = si.solValueCalculator ∧ f.dstCalc = so.solValueCalculator ∧ r.pricing.program = pool.pricingProgram ∧
      pp.swapAccounts J.fc p.sourceMint p.destinationMint = .ok r.pricing.metas ∧ k.signer = p.tokenTransferAuthority ∧
      SwapKeysOk J.cfg w k f.srcIdx f.dstIdx ⟨f.srcCalc, r.srcMetas⟩ ⟨f.dstCalc, r.dstMetas⟩ r.pricing pool si so ∧
      SwapLedger w.led k ms md rs rd fa us ud ∧
      (∀ n, di.reserves = some n → rs.amount = n) ∧ (∀ n, d_o.reserves = some n → rd.amount = n) := by
  simp only [SPool.swapRequest, hsi, hso, hpp, bind_ok, okOr_ok, pure_ok, Prod.exists] at hreq
  obtain ⟨_, _, e1, _, _, e2, _, e3, pm, hpm, rfl⟩ := hreq
  cases e1; cases e2; cases e3
  simp only [resolveSwap, bind_ok, Prod.exists, pure_ok, Prod.mk.injEq, poolReserves_ok, feeAccumulator_ok] at hres
  obtain ⟨i, s', hf, sr, hsr, j, d', hf', dr, hdr, fee, hfee, rfl, rfl⟩ := hres
  have hlw := hr.lsts lsts hl
  subst hlw
  obtain ⟨hii, him, -⟩ := findLst_ok.1 hf
  obtain ⟨hjj, hjm, -⟩ := findLst_ok.1 hf'
  obtain ⟨hse, hdi⟩ := hr.ready hinv.ctl.mints hsi hii him
  obtain rfl : si = s' := hse
  obtain ⟨hse, hdo⟩ := hr.ready hinv.ctl.mints hso hjj hjm
  obtain rfl : so = d' := hse
  obtain ⟨ms, rk, ak, rs, fs, la⟩ := hinv.accs si (List.mem_of_getElem? hii)
  obtain ⟨md, rk', ak', rd, fa, lb⟩ := hinv.accs so (List.mem_of_getElem? hjj)
  have hts := hr.tokenPrograms i si di ms hii hdi la.mint
  have htd := hr.tokenPrograms j so d_o md hjj hdo lb.mint
  have hpw := hr.pool pool hpool
  obtain ⟨pw, hpw', hdis, hreb⟩ := hact
  rw [hpw] at hpw'; cases hpw'
  obtain ⟨_, hal, _, hal3⟩ := hr.aligned
  rw [hl] at hal; cases hal
  obtain ⟨hcs, -⟩ := hal3 i si di hii hdi
  obtain ⟨hcd, -⟩ := hal3 j so d_o hjj hdo
  rw [hts] at hsr
  rw [htd] at hdr hfee
  have hsr' := hsr; have hdr' := hdr; have hfee' := hfee
  rw [la.res_key] at hsr'; cases hsr'
  rw [lb.res_key] at hdr'; cases hdr'
  rw [lb.acc_key] at hfee'; cases hfee'
  obtain ⟨rest, hrest⟩ := di.solCalc.ixAccounts_head J
  rw [hcs, him] at hrest
  obtain ⟨rest', hrest'⟩ := d_o.solCalc.ixAccounts_head J
  rw [hcd, hjm] at hrest'
  have hms : w.led.mints p.sourceMint = some ms := by rw [← him]; exact la.mint
  have hmd : w.led.mints p.destinationMint = some md := by rw [← hjm]; exact lb.mint
  refine ⟨ms, md, rs, rd, fa, hii, hjj, hdi, hdo, rfl, rfl, rfl, rfl, rfl, hpm, rfl, ?_, ?_, ?_, ?_⟩
  · exact
      { poolKey := rfl, listKey := rfl, pool := hpw, notReb := hreb, notDis := hdis, srcEntry := hii, dstEntry := hjj, srcMint := him
        dstMint := hjm, ne := hne, inputOk := hien
        srcProg := ⟨ms, hms, hts.symm⟩
        dstProg := ⟨md, hmd, htd.symm⟩
        srcRes := by rw [hts]; exact la.res_key
        dstRes := by rw [htd]; exact lb.res_key
        accum := by rw [htd]; exact lb.acc_key
        srcCalc := rfl, dstCalc := rfl, pricingProg := rfl
        srcMetas := ⟨rest, hrest⟩
        dstMetas := ⟨rest', hrest'⟩
        pricingMetas := FlatProg.swapAccounts_head hpm }
  · exact
      { srcMint := hms, srcProg := hts.symm, dstMint := hmd, dstProg := htd.symm
        srcRes := ⟨la.res, by rw [hts]; exact la.ra_prog, by rw [← him]; exact la.ra_mint⟩
        dstRes := ⟨lb.res, by rw [htd]; exact lb.ra_prog, by rw [← hjm]; exact lb.ra_mint⟩
        dstOwner := lb.ra_owner
        accum := ⟨lb.acc, by rw [htd]; exact lb.fa_prog, by rw [← hjm]; exact lb.fa_mint⟩
        userSrc := ⟨hus.tok, by rw [hts]; exact hus.program ms hms, hus.mint⟩
        userDst := ⟨hud.tok, by rw [htd]; exact hud.program md hmd, hud.mint⟩
        mintNe := hne
        srcNe := by
          intro e
          have h := hus.tok
          simp only at e
          rw [e, la.res] at h; cases h
          exact hus.notPool la.ra_owner
        dstNe := by
          constructor
          · intro e
            have h := hud.tok
            simp only at e
            rw [e, lb.res] at h; cases h
            exact hud.notPool lb.ra_owner
          · intro e
            have h := hud.tok
            simp only at e
            rw [e, lb.acc] at h; cases h
            exact hud.notFees lb.fa_owner
        resNe := by
          intro e
          simp only at e
          subst e
          exact J.cfg.pool_ne_fee (J.cfg.ata_inj lb.res_key lb.acc_key).1 }
  · intro n hn
    have := hr.reserves i si di n ms _ hii hdi hn la.mint la.res_key
    rw [bal, la.res] at this; exact this
  · intro n hn
    have := hr.reserves j so d_o n md _ hjj hdo hn lb.mint lb.res_key
    rw [bal, lb.res] at this; exact this

theorem sumSol_two {ls : List LstState} {i j : Nat} {s d : LstState} (hi : ls[i]? = some s) (hj : ls[j]? = some d) (hij : i ≠ j) :
    s.solValue + d.solValue ≤ sumSol ls := by
  have h1 := sum_set LstState.solValue ls i s { s with solValue := 0 } hi
  have hj' : (ls.set i { s with solValue := 0 })[j]? = some d := by rw [List.getElem?_set_ne hij]; exact hj
  have h2 := le_sumSol (List.mem_of_getElem? hj')
  simp only [sumSol] at *
  omega

/-- C54, swap exact in: a quoted swap executes, from a user holding the input LST, as long as the amounts fit in 64 bits and the pool does not
lose value by it (the program's own condition, which the library does not check; `C54_exactIn_keeps` gives cases in which it holds). -/
theorem C54_swapExactIn (hr : Ready J L env cs S w) (hreach : Reachable J.cfg L w) (hb : w.led.Backed) (hact : Active w)
    {pool : PoolState} (hpool : S.pool = .ok pool) {q : QuoteParams} {Q : Quote} (hmode : q.exactOut = false)
    (hin : q.inputMint ≠ pool.lpTokenMint) (hout : q.outputMint ≠ pool.lpTokenMint) (hne : q.inputMint ≠ q.outputMint)
    (hquote : S.quote L q = .ok Q) (hamt : 0 < q.amount)
    (hfits : S.SwapFits L q.inputMint q.outputMint Q.inAmount)
    (hkeeps : ∀ fee, S.ProtocolFee L q Q fee → S.Keeps L q.inputMint q.outputMint Q.inAmount (Q.outAmount + fee))
    {src dst signer : Pubkey} {ix : TopIx}
    (hix : S.swapIx J ⟨Q.inAmount, Q.outAmount, q.inputMint, q.outputMint, src, dst, signer⟩ q.exactOut = .ok ix)
    {us ud : TokenAcc} (hus : Wallet J.cfg w.led src q.inputMint us) (hud : Wallet J.cfg w.led dst q.outputMint ud)
    (hown : us.owner = signer) (hen : Q.inAmount ≤ us.amount)
    {accs : List Acc} (hseen : SeenAs ix.accs accs) (tx : TxInfo) :
    ∃ w', processInstruction J.cfg L env tx w ix.program accs ix.data = .ok w' := by
  have hinv := hreach.inv
  simp only [SPool.quote, hpool, hin, hout, hmode, if_false, bind, Except.bind, Bool.false_eq_true, if_true] at hquote
  simp only [SPool.quoteExactIn, bind_ok, okOr_ok, require_ok, pure_ok, Prod.exists, exists_const, addU64_ok] at hquote
  obtain ⟨p', hp', pp, hpp, si, di, hsi, hien, t1, res1, happ, so, d_o, hso, t2, res, happ2, inS, hinS, hinne, outS, houtS, hle, rO, hrO, hone,
    fee, hfee, tot, ⟨rfl, htot⟩, hen', fa', fp', fq', hqf, rfl⟩ := hquote
  rw [hpool] at hp'; cases hp'
  have hix := swapIx_swap hpool hix hin hout
  rw [hmode] at hix
  simp only [SPool.swapIx', bind_ok, Prod.exists, swapExactInByMint, if_true, if_false, Bool.false_eq_true] at hix
  obtain ⟨p', hp', r, hreq, lsts, hl, k, f, hres, hix⟩ := hix
  rw [hpool] at hp'; cases hp'
  obtain ⟨ms, md, rs, rd, fa, hii, hjj, hdi, hdo, hsm, hdm, hsc, hdc, hpr, hpm, hsig, hk, hled, hrs, hrd⟩ :=
    swap_setup hr hinv hact hsi hso hien hpp hreq hpool hl hres hne hus hud
  simp only [swapExactInIx, bind_ok, Prod.exists, indexToU32_ok, extendSrcDst_ok, extendSwap_ok, pure_ok] at hix
  obtain ⟨i', ⟨hiu, hie⟩, j', ⟨hju, hje⟩, a1, n1, n2, ⟨hn1, hn2, rfl, rfl, rfl⟩, a2, n3, ⟨hn3, hn4, rfl, rfl⟩, rfl⟩ := hix
  subst hie hje
  simp only [SPool.applySync, bind_ok, okOr_ok, pure_ok, Prod.mk.injEq, syncedTotal, subU64_ok, addU64_ok] at happ happ2
  obtain ⟨n0, hn, v0, hv0, t', ⟨x, ⟨rfl, hxle⟩, rfl, hxf⟩, rfl, rfl⟩ := happ
  obtain ⟨n0', hn', v1, hv1, t'', ⟨y, ⟨rfl, hyle⟩, rfl, hyf⟩, rfl, rfl⟩ := happ2
  obtain ⟨r5, r', hr5, hr', hfit⟩ := hfits pool si di n0 so d_o n0' hpool hsi hso hn hn'
  simp only at hr5 hfit
  rw [hv1] at hr'; cases hr'
  have hkeep := hkeeps fee ⟨pool, inS.min, outS, hpool, ⟨pp, si, di, so, d_o, hpp, hsi, hso,
    by rw [hmode]; simp only [Bool.false_eq_true, if_false]; exact ⟨inS, hinS, rfl, houtS⟩⟩, hfee⟩ si di n0 so d_o n0' hsi hso hn hn' v0 v1 r5
  simp only at hkeep
  obtain ⟨ci, hci, hv0'⟩ := KnownCalc.lstToSol_ok hv0
  obtain ⟨co, hco, hv1'⟩ := KnownCalc.lstToSol_ok hv1
  obtain ⟨c1, hc1, hr5'⟩ := KnownCalc.lstToSol_ok hr5
  rw [hci] at hc1; cases hc1
  obtain ⟨huci, hservei⟩ := hr.serves _ si di ci hii hdi hci
  obtain ⟨huco, hserveo⟩ := hr.serves _ so d_o co hjj hdo hco
  obtain rfl := hrs _ hn
  obtain rfl := hrd _ hn'
  obtain ⟨c1, hc1, hinS'⟩ := KnownCalc.lstToSol_ok hinS
  rw [hci] at hc1; cases hc1
  obtain ⟨c1, hc1, hrO'⟩ := KnownCalc.solToLst_ok hrO
  rw [hco] at hc1; cases hc1
  have hij : f.srcIdx ≠ f.dstIdx := by
    intro e
    rw [e, hjj] at hii; cases hii
    exact hk.ne (hk.srcMint.symm.trans hk.dstMint)
  have hend := AnyCalc.lstToSol_down huco (a := rd.amount - (rO.min + fee)) (b := rd.amount) (by omega) hv1'
  have hkeep := hkeep _ hv0 hv1 hr5 (by simp only [KnownCalc.lstToSol, hco, bind, Except.bind]; exact hend)
  rw [(AnyCalc.is L huci).lstToSol hv0', (AnyCalc.is L huco).lstToSol hv1', (AnyCalc.is L huci).lstToSol hr5'] at hkeep
  simp only [Range.single] at hkeep
  have hsv := sumSol_two hii hjj hij
  rw [← hinv.ctl.total pool hk.pool] at hsv
  have hub := hinv.wf.tok_u64 _ _ hled.userSrc.tok
  simp only at hen
  have room1 := hb.room hinv.wf hled.srcNe hled.userSrc.tok hled.srcRes.tok hled.userSrc.mint hled.srcRes.mint hled.srcMint
  have room2 := hb.room hinv.wf hled.resNe hled.dstRes.tok hled.accum.tok hled.dstRes.mint hled.accum.mint hled.dstMint
  have room3 := hb.room hinv.wf hled.dstNe.1 hled.userDst.tok hled.dstRes.tok hled.userDst.mint hled.dstRes.mint hled.dstMint
  have hinu := AnyCalc.lstToSol_u64 huci (Nat.lt_of_le_of_lt hen hub) hinS'
  have houtu := AnyCalc.solToLst_u64 huco (Nat.lt_of_le_of_lt hle hinu.1) hrO'
  have hlive := swapIn_live (accs := accs) (minOut := rO.min) hk hled hinv.wf huci huco (by rw [hsm, hsc]; exact hservei)
    (by rw [hdm, hdc]; exact hserveo) hsv hv0' hv1' hxf hyf (by omega) (by omega) hinS' hinne
    (by have := hr.quotesIn hpool hpp hpm houtS q.amount; rw [← hpr] at this; exact this) (Nat.lt_of_le_of_lt hle hinu.1) hrO' hone (Nat.le_refl _)
    hfee (hown.trans hsig.symm) hen hen' (by omega) (by omega) (by omega) hr5' hfit hkeep (by simpa using hseen)
  have hdec : decodeIx (overwrite (Ix.swapExactIn ⟨0, 0, f.srcIdx, f.dstIdx, rO.min, q.amount⟩).encode
      (Ix.swapExactIn ⟨r.srcMetas.length, r.dstMetas.length, f.srcIdx, f.dstIdx, rO.min, q.amount⟩).encode) =
      .ok (.swapExactIn ⟨r.srcMetas.length, r.dstMetas.length, f.srcIdx, f.dstIdx, rO.min, q.amount⟩) := by
    rw [overwrite_same (encode_length_swapIn _ _)]
    apply C38_roundtrip
    simp only [Ix.Wf]
    refine ⟨by omega, by omega, hiu, hju, ?_, ?_⟩ <;> unfold U64 at * <;> omega
  rw [processInstruction_of_decode L env tx w accs hdec]
  exact hlive

theorem flatPriceExactOut_u64 {i o : Int} {x y : Nat} (h : flatPriceExactOut L i o x = .ok y) : y < U64 := by
  simp only [flatPriceExactOut, bind_ok, mapErr_ok, pure_ok] at h
  obtain ⟨n, hn, r, hr, rfl⟩ := h
  simp only [floorReverse] at hr
  split at hr
  · exact (L.reverseDegen_u64 _ _ _ _ hr).2
  · simp only [bind_ok, toU64_ok, pure_ok] at hr
    obtain ⟨_, ⟨rfl, _⟩, _, ⟨rfl, h⟩, rfl⟩ := hr
    exact h

/-- C54, swap exact out: a quoted swap executes, with the quoted input as the maximum, under the same conditions. -/
theorem C54_swapExactOut (hr : Ready J L env cs S w) (hreach : Reachable J.cfg L w) (hb : w.led.Backed) (hact : Active w)
    {pool : PoolState} (hpool : S.pool = .ok pool) {q : QuoteParams} {Q : Quote} (hmode : q.exactOut = true)
    (hin : q.inputMint ≠ pool.lpTokenMint) (hout : q.outputMint ≠ pool.lpTokenMint) (hne : q.inputMint ≠ q.outputMint)
    (hquote : S.quote L q = .ok Q) (hamt : 0 < q.amount)
    (hfits : S.SwapFits L q.inputMint q.outputMint Q.inAmount)
    (hkeeps : ∀ fee, S.ProtocolFee L q Q fee → S.Keeps L q.inputMint q.outputMint Q.inAmount (Q.outAmount + fee))
    {src dst signer : Pubkey} {ix : TopIx}
    (hix : S.swapIx J ⟨Q.inAmount, Q.outAmount, q.inputMint, q.outputMint, src, dst, signer⟩ q.exactOut = .ok ix)
    {us ud : TokenAcc} (hus : Wallet J.cfg w.led src q.inputMint us) (hud : Wallet J.cfg w.led dst q.outputMint ud)
    (hown : us.owner = signer) (hen : Q.inAmount ≤ us.amount)
    {accs : List Acc} (hseen : SeenAs ix.accs accs) (tx : TxInfo) :
    ∃ w', processInstruction J.cfg L env tx w ix.program accs ix.data = .ok w' := by
  have hinv := hreach.inv
  simp only [SPool.quote, hpool, hin, hout, hmode, if_false, bind, Except.bind, Bool.false_eq_true, if_true] at hquote
  simp only [SPool.quoteExactOut, bind_ok, okOr_ok, require_ok, pure_ok, Prod.exists, exists_const, addU64_ok] at hquote
  obtain ⟨p', hp', pp, hpp, si, di, hsi, hien, t1, res1, happ, so, d_o, hso, t2, res, happ2, outS, houtS, houtne, inS, hinS, hle, rI, hrI, hine,
    fee, hfee, tot, ⟨rfl, htot⟩, hen', fa', fp', fq', hqf, rfl⟩ := hquote
  rw [hpool] at hp'; cases hp'
  have hix := swapIx_swap hpool hix hin hout
  rw [hmode] at hix
  simp only [SPool.swapIx', bind_ok, Prod.exists, swapExactOutByMint, if_true, if_false, Bool.false_eq_true] at hix
  obtain ⟨p', hp', r, hreq, lsts, hl, k, f, hres, hix⟩ := hix
  rw [hpool] at hp'; cases hp'
  obtain ⟨ms, md, rs, rd, fa, hii, hjj, hdi, hdo, hsm, hdm, hsc, hdc, hpr, hpm, hsig, hk, hled, hrs, hrd⟩ :=
    swap_setup hr hinv hact hsi hso hien hpp hreq hpool hl hres hne hus hud
  simp only [swapExactOutIx, bind_ok, Prod.exists, indexToU32_ok, extendSrcDst_ok, extendSwap_ok, pure_ok] at hix
  obtain ⟨i', ⟨hiu, hie⟩, j', ⟨hju, hje⟩, a1, n1, n2, ⟨hn1, hn2, rfl, rfl, rfl⟩, a2, n3, ⟨hn3, hn4, rfl, rfl⟩, rfl⟩ := hix
  subst hie hje
  simp only [SPool.applySync, bind_ok, okOr_ok, pure_ok, Prod.mk.injEq, syncedTotal, subU64_ok, addU64_ok] at happ happ2
  obtain ⟨n0, hn, v0, hv0, t', ⟨x, ⟨rfl, hxle⟩, rfl, hxf⟩, rfl, rfl⟩ := happ
  obtain ⟨n0', hn', v1, hv1, t'', ⟨y, ⟨rfl, hyle⟩, rfl, hyf⟩, rfl, rfl⟩ := happ2
  obtain ⟨r5, r', hr5, hr', hfit⟩ := hfits pool si di n0 so d_o n0' hpool hsi hso hn hn'
  simp only at hr5 hfit
  rw [hv1] at hr'; cases hr'
  have hkeep := hkeeps fee ⟨pool, inS, outS.max, hpool, ⟨pp, si, di, so, d_o, hpp, hsi, hso,
    by rw [hmode]; simp only [if_true]; exact ⟨outS, houtS, rfl, hinS⟩⟩, hfee⟩ si di n0 so d_o n0' hsi hso hn hn' v0 v1 r5
  simp only at hkeep
  obtain ⟨ci, hci, hv0'⟩ := KnownCalc.lstToSol_ok hv0
  obtain ⟨co, hco, hv1'⟩ := KnownCalc.lstToSol_ok hv1
  obtain ⟨c1, hc1, hr5'⟩ := KnownCalc.lstToSol_ok hr5
  rw [hci] at hc1; cases hc1
  obtain ⟨huci, hservei⟩ := hr.serves _ si di ci hii hdi hci
  obtain ⟨huco, hserveo⟩ := hr.serves _ so d_o co hjj hdo hco
  obtain rfl := hrs _ hn
  obtain rfl := hrd _ hn'
  obtain ⟨c1, hc1, houtS'⟩ := KnownCalc.lstToSol_ok houtS
  rw [hco] at hc1; cases hc1
  obtain ⟨c1, hc1, hrI'⟩ := KnownCalc.solToLst_ok hrI
  rw [hci] at hc1; cases hc1
  have hij : f.srcIdx ≠ f.dstIdx := by
    intro e
    rw [e, hjj] at hii; cases hii
    exact hk.ne (hk.srcMint.symm.trans hk.dstMint)
  have hend := AnyCalc.lstToSol_down huco (a := rd.amount - (q.amount + fee)) (b := rd.amount) (by omega) hv1'
  have hkeep := hkeep _ hv0 hv1 hr5 (by simp only [KnownCalc.lstToSol, hco, bind, Except.bind]; exact hend)
  rw [(AnyCalc.is L huci).lstToSol hv0', (AnyCalc.is L huco).lstToSol hv1', (AnyCalc.is L huci).lstToSol hr5'] at hkeep
  simp only [Range.single] at hkeep
  have hsv := sumSol_two hii hjj hij
  rw [← hinv.ctl.total pool hk.pool] at hsv
  have hub := hinv.wf.tok_u64 _ _ hled.userSrc.tok
  have hrdb := hinv.wf.tok_u64 _ _ hled.dstRes.tok
  simp only at hen
  have room1 := hb.room hinv.wf hled.srcNe hled.userSrc.tok hled.srcRes.tok hled.userSrc.mint hled.srcRes.mint hled.srcMint
  have room2 := hb.room hinv.wf hled.resNe hled.dstRes.tok hled.accum.tok hled.dstRes.mint hled.accum.mint hled.dstMint
  have room3 := hb.room hinv.wf hled.dstNe.1 hled.userDst.tok hled.dstRes.tok hled.userDst.mint hled.dstRes.mint hled.dstMint
  have hinu : inS < U64 := by
    simp only [FlatProg.quoteExactOut, bind_ok] at hinS
    obtain ⟨_, _, _, _, h⟩ := hinS
    exact flatPriceExactOut_u64 h
  have hlive := swapOut_live (accs := accs) (maxIn := rI.max) hk hled hinv.wf huci huco (by rw [hsm, hsc]; exact hservei)
    (by rw [hdm, hdc]; exact hserveo) hsv hv0' hv1' hxf hyf (by omega) (by omega) hine houtS' houtne
    (by have := hr.quotesOut hpool hpp hpm hinS q.amount; rw [← hpr] at this; exact this) hinu hrI' hine (Nat.le_refl _)
    hfee (hown.trans hsig.symm) hen hen' (by omega) (by omega) (by omega) hr5' hfit hkeep (by simpa using hseen)
  have hdec : decodeIx (overwrite (Ix.swapExactOut ⟨0, 0, f.srcIdx, f.dstIdx, rI.max, q.amount⟩).encode
      (Ix.swapExactOut ⟨r.srcMetas.length, r.dstMetas.length, f.srcIdx, f.dstIdx, rI.max, q.amount⟩).encode) =
      .ok (.swapExactOut ⟨r.srcMetas.length, r.dstMetas.length, f.srcIdx, f.dstIdx, rI.max, q.amount⟩) := by
    rw [overwrite_same (encode_length_swapOut _ _)]
    apply C38_roundtrip
    simp only [Ix.Wf]
    refine ⟨by omega, by omega, hiu, hju, ?_, ?_⟩ <;> unfold U64 at * <;> omega
  rw [processInstruction_of_decode L env tx w accs hdec]
  exact hlive

/-! ### When the pool keeps its value -/

/-- The stake pool behind the cached LST takes nothing on a withdrawal of stake (Lido and wrapped SOL never do). -/
def KnownCalc.NoWithdrawalFee (epoch : Nat) (k : KnownCalc) : Prop := ∀ c, k.usable epoch = .ok c →
  match c with
  | .spl c => c.feeNum = 0
  | .marinade c => c.withdrawStakeAccountFeeCents = 0
  | _ => True

/-- C54: an exact-in quote is one by which the pool keeps its value if the part of the trading fee that stays in the pool covers the rounding
of the withdrawal fees of the two LSTs' stake pools (at most the value, rounded up, of one unit of each). -/
theorem C54_exactIn_keeps_covered (hr : Ready J L env cs S w) (hreach : Reachable J.cfg L w) {q : QuoteParams} {Q : Quote} (hmode : q.exactOut = false)
    {pool : PoolState} (hpool : S.pool = .ok pool) (hin : q.inputMint ≠ pool.lpTokenMint) (hout : q.outputMint ≠ pool.lpTokenMint)
    (hquote : S.quote L q = .ok Q)
    (hcover : ∀ inSol outSol s d s' d' c c', S.SwapValues L q inSol outSol → S.findReady q.inputMint = .ok (s, d) →
      S.findReady q.outputMint = .ok (s', d') → d.solCalc.usable S.epoch = .ok c → d'.solCalc.usable S.epoch = .ok c' →
      c.depositSlack + c'.redeemSlack ≤ inSol - outSol - cdiv ((inSol - outSol) * pool.tradingProtocolFeeBps) 10000) :
    ∀ fee, S.ProtocolFee L q Q fee → S.Keeps L q.inputMint q.outputMint Q.inAmount (Q.outAmount + fee) := by
  have hinv := hreach.inv
  simp only [SPool.quote, hpool, hin, hout, hmode, if_false, bind, Except.bind, Bool.false_eq_true] at hquote
  simp only [SPool.quoteExactIn, bind_ok, okOr_ok, require_ok, pure_ok, Prod.exists, exists_const, addU64_ok] at hquote
  obtain ⟨p', hp', pp, hpp, si, di, hsi, hien, t1, res1, happ, so, d_o, hso, t2, res, happ2, inS, hinS, hinne, outS, houtS, hle, rO, hrO, hone,
    fee0, hfee, tot, ⟨rfl, htot⟩, hen', fa', fp', fq', hqf, rfl⟩ := hquote
  rw [hpool] at hp'; cases hp'
  rintro fee ⟨p', inSol, outSol, h1, hsv, h6⟩
  have hsv' := hsv
  obtain ⟨pp', s1, d1, s2, d2, h2, h3, h4, h5⟩ := hsv'
  rw [hpool] at h1; cases h1
  rw [hpp] at h2; cases h2
  rw [hsi] at h3; cases h3
  rw [hso] at h4; cases h4
  rw [hmode] at h5
  simp only [Bool.false_eq_true, if_false] at h5
  obtain ⟨r, hr1, rfl, hr2⟩ := h5
  rw [hinS] at hr1; cases hr1
  rw [houtS] at hr2; cases hr2
  simp only at h6
  rw [hfee] at h6; cases h6
  intro s d n s' d' n' e1 e2 hn hn' a b a' b' ha hb ha' hb'
  rw [hsi] at e1; cases e1
  rw [hso] at e2; cases e2
  simp only at ha' hb'
  obtain ⟨_, i, hl, hii, hdi, _⟩ := SPool.findReady_ok hsi
  obtain ⟨_, j, hl', hjj, hdo, _⟩ := SPool.findReady_ok hso
  have := hr.lsts _ hl; subst this
  have := hr.lsts _ hl'; subst this
  simp only [SPool.applySync, bind_ok, okOr_ok, pure_ok, Prod.mk.injEq] at happ2
  obtain ⟨_, hn'', _, _, _, _, _, rfl⟩ := happ2
  rw [hn'] at hn''; cases hn''
  obtain ⟨ci, hci, ha⟩ := KnownCalc.lstToSol_ok ha
  obtain ⟨co, hco, hb⟩ := KnownCalc.lstToSol_ok hb
  obtain ⟨c1, hc1, ha'⟩ := KnownCalc.lstToSol_ok ha'
  rw [hci] at hc1; cases hc1
  obtain ⟨c1, hc1, hb'⟩ := KnownCalc.lstToSol_ok hb'
  rw [hco] at hc1; cases hc1
  obtain ⟨c1, hc1, hinS⟩ := KnownCalc.lstToSol_ok hinS
  rw [hci] at hc1; cases hc1
  obtain ⟨c1, hc1, hrO⟩ := KnownCalc.solToLst_ok hrO
  rw [hco] at hc1; cases hc1
  have hcov := hcover _ _ _ _ _ _ _ _ hsv hsi hso hci hco
  have huci := (hr.serves i _ _ ci hii hdi hci).1
  have huco := (hr.serves j _ _ co hjj hdo hco).1
  have ei := (AnyCalc.is L huci).lstToSol hinS
  have eo := (AnyCalc.is L huco).solToLst hrO
  subst ei eo
  rw [(AnyCalc.is L huci).lstToSol ha, (AnyCalc.is L huci).lstToSol ha', (AnyCalc.is L huco).lstToSol hb, (AnyCalc.is L huco).lstToSol hb']
  simp only [Range.single] at *
  have hone' : outS ≠ 0 := by rintro rfl; exact hone co.rmin_zero
  have hbps := (hinv.ctl.fees pool (hr.pool pool hpool)).1
  have hsh : cdiv ((ci.f q.amount - outS) * pool.tradingProtocolFeeBps) 10000 ≤ ci.f q.amount - outS := share_le hbps
  have hfe := swapFee_ok hfee hone'
  have hd := AnyCalc.dep huci (a := q.amount) (b := n) (p := 0) (u := ci.f q.amount) (Nat.le_refl _) hinne (by simp) (Nat.zero_le _)
  rw [Nat.sub_zero] at hd
  have hrd := AnyCalc.red huco (AnyCalc.answers_of (.inl hb)) (b := n') (p := fee0) (u := outS)
    (v := outS + cdiv ((ci.f q.amount - outS) * pool.tradingProtocolFeeBps) 10000) hone' (Nat.le_add_right _ _)
    (by rw [Nat.add_sub_cancel_left, hfe]; exact Nat.div_mul_le_self _ _) hen'
  have h3 : (if fee0 = 0 then 0 else co.redeemSlack) ≤ co.redeemSlack := by split <;> omega
  omega

/-- C54: for two LSTs without withdrawal fees every exact-in quote is one by which the pool keeps its value. -/
theorem C54_exactIn_keeps (hr : Ready J L env cs S w) (hreach : Reachable J.cfg L w) {q : QuoteParams} {Q : Quote} (hmode : q.exactOut = false)
    {pool : PoolState} (hpool : S.pool = .ok pool) (hin : q.inputMint ≠ pool.lpTokenMint) (hout : q.outputMint ≠ pool.lpTokenMint)
    (hquote : S.quote L q = .ok Q)
    (hno : ∀ m s d, m = q.inputMint ∨ m = q.outputMint → S.findReady m = .ok (s, d) → d.solCalc.NoWithdrawalFee S.epoch) :
    ∀ fee, S.ProtocolFee L q Q fee → S.Keeps L q.inputMint q.outputMint Q.inAmount (Q.outAmount + fee) := by
  apply C54_exactIn_keeps_covered hr hreach hmode hpool hin hout hquote
  intro inSol outSol s d s' d' c c' _ hs hs' hc hc'
  have h1 := hno _ _ _ (.inl rfl) hs c hc
  have h2 := hno _ _ _ (.inr rfl) hs' c' hc'
  have e1 : c.depositSlack = 0 := by cases c <;> simp_all [AnyCalc.depositSlack]
  have e2 : c'.redeemSlack = 0 := by cases c' <;> simp_all [AnyCalc.redeemSlack]
  rw [e1, e2]; exact Nat.zero_le _

end

/-! ### A concrete case: the example's cache after its two rounds of fetching, for the user 40 with the token accounts 41, 42 and 43. -/

namespace Ex

theorem ok_of_toOption {α : Type} {x : R α} {a : α} (h : x.toOption = some a) : x = .ok a := by
  cases x with
  | ok b => injection h with h; rw [h]
  | error e => cases h

theorem cache_epoch : (cache (st 7)).epoch = 0 := by decide +kernel
theorem cache_progs : (st 7).ctl.lsts.map (fun s => ((st 7).led.mints s.mint).map Mint.program) = [some 8, some 8] := by decide +kernel
theorem st_pricing : (st 7).ctl.pool.map PoolState.pricingProgram = some 7 := by decide +kernel

theorem cache_ready : Ready jup .ex fenv fhist (cache (st 7)) (st 7) where
  toFresh := cache_fresh
  aligned := by
    refine ⟨(st 7).ctl.lsts, ok_of_toOption cache_lsts, by decide +kernel, ?_⟩
    intro i s d hs hd
    have hs' : ((st 7).ctl.lsts.map (fun s => (s.mint, s.solValueCalculator)))[i]? = some (s.mint, s.solValueCalculator) := by simp [hs]
    rw [cache_lsts_ok] at hs'
    rw [cache_data] at hd
    match i, hd, hs' with
    | 0, hd, hs' =>
      injection hd with hd; injection hd with hd; subst hd
      injection hs' with hs'; injection hs' with h1 h2
      exact ⟨h1, h2⟩
    | 1, hd, hs' =>
      injection hd with hd; injection hd with hd; subst hd
      injection hs' with hs'; injection hs' with h1 h2
      exact ⟨h1, h2⟩
    | i + 2, hd, _ => cases hd
  tokenPrograms := by
    intro i s d m hs hd hm
    have hs' : ((st 7).ctl.lsts.map (fun s => ((st 7).led.mints s.mint).map Mint.program))[i]? = some (some m.program) := by simp [hs, hm]
    rw [cache_progs] at hs'
    rw [cache_data] at hd
    match i, hd, hs' with
    | 0, hd, hs' =>
      injection hd with hd; injection hd with hd; subst hd
      injection hs' with hs'; injection hs' with h1
    | 1, hd, hs' =>
      injection hd with hd; injection hd with hd; subst hd
      injection hs' with hs'; injection hs' with h1
    | i + 2, hd, _ => cases hd
  serves := by
    intro i s d c hs hd hc
    have hs' : ((st 7).ctl.lsts.map (fun s => (s.mint, s.solValueCalculator)))[i]? = some (s.mint, s.solValueCalculator) := by simp [hs]
    rw [cache_lsts_ok] at hs'
    rw [cache_data] at hd
    rw [cache_epoch] at hc
    match i, hd, hs' with
    | 0, hd, hs' =>
      injection hd with hd; injection hd with hd; subst hd
      injection hs' with hs'; injection hs' with h1 h2
      injection hc with hc; subst hc
      rw [← h2]
      refine ⟨trivial, fun n w ms _ => ⟨fun a r h => Env.pure_calc.2 ⟨h, rfl⟩, fun a r h => Env.pure_calc.2 ⟨h, rfl⟩⟩⟩
    | 1, hd, hs' =>
      injection hd with hd; injection hd with hd; subst hd
      injection hs' with hs'; injection hs' with h1 h2
      injection hc with hc; subst hc
      rw [← h2]
      refine ⟨⟨by decide, by decide⟩, fun n w ms _ => ⟨fun a r h => Env.pure_calc.2 ⟨h, rfl⟩, fun a r h => Env.pure_calc.2 ⟨h, rfl⟩⟩⟩
    | i + 2, hd, _ => cases hd
  answers := by
    intro p _
    refine ⟨fview, fun n w ms q r F' h => Env.pure_price.2 ⟨?_, rfl⟩⟩
    have h : flatProcess .ex fview (flatHistory .ex fhist) ms q.flat = .ok (F', some r) := h
    show (flatProcess .ex fview (flatHistory .ex fhist) ms q.flat).bind (fun x => okOr x.2 .faultyPricingProgram) = _
    rw [h]; rfl

theorem st_active : Active (st 7) := by
  have h : (st 7).ctl.pool.map (fun p => (p.isDisabled, p.isRebalancing)) = some (0, 0) := by decide +kernel
  cases hp : (st 7).ctl.pool with
  | none => rw [hp] at h; cases h
  | some p =>
    rw [hp] at h; injection h with h; injection h with h1 h2
    exact ⟨p, hp, h1, h2⟩

theorem find21 : ((cache (st 7)).findReady 21).toOption.map (fun x => (x.1.solValue, x.2)) = some (36031, ⟨.wsol, some 36031, 8⟩) := by decide +kernel
theorem find22 : ((cache (st 7)).findReady 22).toOption.map (fun x => (x.1.solValue, x.2)) =
    some (24024, ⟨.lido (some ⟨0, 2, 3⟩), some 16016, 8⟩) := by decide +kernel
theorem total7 : (cache (st 7)).pool.toOption.map (fun p => (p.totalSolValue, p.lpTokenMint, p.tradingProtocolFeeBps)) =
  some (60055, 20, 1000) := by decide +kernel

theorem find_inv {x : R (LstState × LstData)} {v : Nat} {d₀ : LstData} (h : x.toOption.map (fun x => (x.1.solValue, x.2)) = some (v, d₀))
    {s : LstState} {d : LstData} (hx : x = .ok (s, d)) : s.solValue = v ∧ d = d₀ := by
  subst hx; injection h with h; injection h with h1 h2; exact ⟨h1, h2⟩

theorem total_inv {p : PoolState} (h : (cache (st 7)).pool = .ok p) : p.totalSolValue = 60055 ∧ p.lpTokenMint = 20 ∧ p.tradingProtocolFeeBps = 1000 := by
  have := total7
  rw [h] at this; injection this with h; injection h with h1 h; injection h with h2 h3; exact ⟨h1, h2, h3⟩

theorem pool7 : ∃ p, (cache (st 7)).pool = .ok p := by
  cases h : (cache (st 7)).pool with
  | ok p => exact ⟨p, rfl⟩
  | error e => have := total7; rw [h] at this; cases this

theorem wallet41 : Wallet cfg (st 7).led 41 21 ⟨8, 21, 40, 963969⟩ :=
  ⟨by decide +kernel, by
    have h : ((st 7).led.mints 21).map Mint.program = some 8 := by decide +kernel
    intro m hm; rw [hm] at h; injection h with h; exact h.symm, rfl, by decide, by decide⟩
theorem wallet42 : Wallet cfg (st 7).led 42 22 ⟨8, 22, 40, 983980⟩ :=
  ⟨by decide +kernel, by
    have h : ((st 7).led.mints 22).map Mint.program = some 8 := by decide +kernel
    intro m hm; rw [hm] at h; injection h with h; exact h.symm, rfl, by decide, by decide⟩
theorem wallet43 : Wallet cfg (st 7).led 43 20 ⟨8, 20, 40, 60000⟩ :=
  ⟨by decide +kernel, by
    have h : ((st 7).led.mints 20).map Mint.program = some 8 := by decide +kernel
    intro m hm; rw [hm] at h; injection h with h; exact h.symm, rfl, by decide, by decide⟩

theorem fits (a : Nat) (ha : a < 1000000) : (cache (st 7)).SwapFits .ex 21 22 a := by
  intro p s d n s' d' n' hp hs hs' hn hn'
  obtain ⟨hv, rfl⟩ := find_inv find21 hs
  obtain ⟨hv', rfl⟩ := find_inv find22 hs'
  injection hn with hn; injection hn' with hn'; subst hn hn'
  rw [cache_epoch, hv, hv', (total_inv hp).1]
  refine ⟨⟨36031 + a, 36031 + a⟩, ⟨24024, 24024⟩, ?_, ok_of_toOption (by decide +kernel), ?_⟩
  · rfl
  · simp only [U64]; omega

theorem depositFits (a : Nat) (ha : a < 1000000) : (cache (st 7)).DepositFits .ex 21 a := by
  intro p s d n hp hs hn
  obtain ⟨hv, rfl⟩ := find_inv find21 hs
  injection hn with hn; subst hn
  rw [cache_epoch, hv, (total_inv hp).1]
  refine ⟨⟨36031 + a, 36031 + a⟩, rfl, ?_⟩
  simp only [U64]; omega

theorem ok_of_isSome {α : Type} {x : R α} (h : x.toOption.isSome = true) : ∃ a, x = .ok a := by
  cases x with
  | ok a => exact ⟨a, rfl⟩
  | error e => cases h

theorem keepsOut (fee : Nat) (h : (cache (st 7)).ProtocolFee .ex ⟨3000, 21, 22, true⟩ ⟨4511, 3000, 22, 7, (11, 4511)⟩ fee) :
    (cache (st 7)).Keeps .ex 21 22 4511 (3000 + fee) := by
  obtain ⟨p, inS, outS, hp, ⟨pp, s, d, s', d', hpp, hs, hs', hv⟩, hf⟩ := h
  simp only [if_true] at hv
  obtain ⟨r, hr, rfl, hq⟩ := hv
  obtain ⟨-, rfl⟩ := find_inv find22 hs'
  rw [cache_pricing] at hpp; injection hpp with hpp; subst hpp
  rw [cache_epoch] at hr
  have e1 : (KnownCalc.lido (some ⟨0, 2, 3⟩)).lstToSol .ex 0 3000 = .ok ⟨4500, 4500⟩ := ok_of_toOption (by decide +kernel)
  obtain rfl : r = ⟨4500, 4500⟩ := by have := hr.symm.trans e1; injection this
  have e2 : FlatProg.quoteExactOut .ex ⟨some ⟨305, 25⟩, [(21, some ⟨254, 30, 20⟩), (22, some ⟨254, 40, -10⟩)]⟩ 21 22 4500 = .ok 4511 :=
    ok_of_toOption (by decide +kernel)
  obtain rfl : inS = 4511 := by have := hq.symm.trans e2; injection this
  rw [(total_inv hp).2.2] at hf
  have e3 : calcSwapProtocolFees .ex 4511 4500 3000 1000 = .ok 1 := ok_of_toOption (by decide +kernel)
  obtain rfl : fee = 1 := by have := hf.symm.trans e3; injection this
  intro s d n s' d' n' hs hs' hn hn' a b a' b' ha hb ha' hb'
  obtain ⟨-, rfl⟩ := find_inv find21 hs
  obtain ⟨-, rfl⟩ := find_inv find22 hs'
  injection hn with hn; injection hn' with hn'; subst hn hn'
  rw [cache_epoch] at ha hb ha' hb'
  have e1 : KnownCalc.wsol.lstToSol .ex 0 36031 = .ok ⟨36031, 36031⟩ := ok_of_toOption (by decide +kernel)
  have e2 : KnownCalc.wsol.lstToSol .ex 0 (36031 + 4511) = .ok ⟨40542, 40542⟩ := ok_of_toOption (by decide +kernel)
  have e3 : (KnownCalc.lido (some ⟨0, 2, 3⟩)).lstToSol .ex 0 16016 = .ok ⟨24024, 24024⟩ := ok_of_toOption (by decide +kernel)
  have e4 : (KnownCalc.lido (some ⟨0, 2, 3⟩)).lstToSol .ex 0 (16016 - (3000 + 1)) = .ok ⟨19522, 19522⟩ := ok_of_toOption (by decide +kernel)
  obtain rfl : a = _ := by have := ha.symm.trans e1; injection this
  obtain rfl : a' = _ := by have := ha'.symm.trans e2; injection this
  obtain rfl : b = _ := by have := hb.symm.trans e3; injection this
  obtain rfl : b' = _ := by have := hb'.symm.trans e4; injection this
  decide

/-- 3000 of LST 21 for LST 22: quoted at 1996, and executed with 1996 as the minimum. -/
example (tx : TxInfo) : ∃ ix, (cache (st 7)).swapIx jup ⟨3000, 1996, 21, 22, 41, 42, 40⟩ false = .ok ix ∧
    ∃ w', processInstruction cfg .ex fenv tx (st 7) ix.program ix.accs ix.data = .ok w' := by
  obtain ⟨ix, hix⟩ := ok_of_isSome (x := (cache (st 7)).swapIx jup ⟨3000, 1996, 21, 22, 41, 42, 40⟩ false) (by decide +kernel)
  obtain ⟨p, hp⟩ := pool7
  have hlp := (total_inv hp).2.1
  have hq : (cache (st 7)).quote .ex ⟨3000, 21, 22, false⟩ = .ok ⟨3000, 1996, 22, 4, (6, 3000)⟩ := ok_of_toOption (by decide +kernel)
  have hin : (21 : Pubkey) ≠ p.lpTokenMint := by rw [hlp]; decide
  have hout : (22 : Pubkey) ≠ p.lpTokenMint := by rw [hlp]; decide
  refine ⟨ix, hix, C54_swapExactIn cache_ready (st_reachable 7) (st_backed 7 (by decide)) st_active hp (q := ⟨3000, 21, 22, false⟩) rfl hin hout
    (by decide) hq (by decide) (fits 3000 (by decide)) (C54_exactIn_keeps cache_ready (st_reachable 7) rfl hp hin hout hq ?_) hix wallet41 wallet42 rfl
    (by decide) (SeenAs.refl _) tx⟩
  rintro m s d (rfl | rfl) hm c hc
  · obtain ⟨-, rfl⟩ := find_inv find21 hm
    injection hc with hc; subst hc; trivial
  · obtain ⟨-, rfl⟩ := find_inv find22 hm
    rw [cache_epoch] at hc
    injection hc with hc; subst hc; trivial

/-- 3000 of LST 22 bought with LST 21: quoted at 4511, and executed with 4511 as the maximum. -/
example (tx : TxInfo) : ∃ ix, (cache (st 7)).swapIx jup ⟨4511, 3000, 21, 22, 41, 42, 40⟩ true = .ok ix ∧
    ∃ w', processInstruction cfg .ex fenv tx (st 7) ix.program ix.accs ix.data = .ok w' := by
  obtain ⟨ix, hix⟩ := ok_of_isSome (x := (cache (st 7)).swapIx jup ⟨4511, 3000, 21, 22, 41, 42, 40⟩ true) (by decide +kernel)
  obtain ⟨p, hp⟩ := pool7
  have hlp := (total_inv hp).2.1
  have hq : (cache (st 7)).quote .ex ⟨3000, 21, 22, true⟩ = .ok ⟨4511, 3000, 22, 7, (11, 4511)⟩ := ok_of_toOption (by decide +kernel)
  have hin : (21 : Pubkey) ≠ p.lpTokenMint := by rw [hlp]; decide
  have hout : (22 : Pubkey) ≠ p.lpTokenMint := by rw [hlp]; decide
  exact ⟨ix, hix, C54_swapExactOut cache_ready (st_reachable 7) (st_backed 7 (by decide)) st_active hp (q := ⟨3000, 21, 22, true⟩) rfl hin hout
    (by decide) hq (by decide) (fits 4511 (by decide)) keepsOut hix wallet41 wallet42 rfl (by decide) (SeenAs.refl _) tx⟩

/-- 3000 of LST 21 deposited for 2997 LP tokens. -/
example (tx : TxInfo) : ∃ ix, (cache (st 7)).swapIx jup ⟨3000, 2997, 21, 20, 41, 43, 40⟩ false = .ok ix ∧
    ∃ w', processInstruction cfg .ex fenv tx (st 7) ix.program ix.accs ix.data = .ok w' := by
  obtain ⟨ix, hix⟩ := ok_of_isSome (x := (cache (st 7)).swapIx jup ⟨3000, 2997, 21, 20, 41, 43, 40⟩ false) (by decide +kernel)
  obtain ⟨p, hp⟩ := pool7
  have hlp := (total_inv hp).2.1
  have hq : (cache (st 7)).quote .ex ⟨3000, 21, 20, false⟩ = .ok ⟨3000, 2997, 21, 0, (0, 3000)⟩ := ok_of_toOption (by decide +kernel)
  have hsup : (cache (st 7)).lpSupply = some 60000 := by decide +kernel
  refine ⟨ix, hix, C54_addLiquidity cache_ready (st_reachable 7) (st_backed 7 (by decide)) st_active hp (q := ⟨3000, 21, 20, false⟩)
    (by rw [hlp]; decide) hlp.symm hq (by decide) (by decide) (depositFits 3000 (by decide)) ?_ hix wallet41 (by rw [hlp]; exact wallet43) rfl
    (by decide) (SeenAs.refl _) tx⟩
  intro n hn
  rw [hsup] at hn; injection hn with hn; subst hn; decide

/-- 3000 LP tokens redeemed for 1996 of LST 22. -/
example (tx : TxInfo) : ∃ ix, (cache (st 7)).swapIx jup ⟨3000, 1996, 20, 22, 43, 42, 40⟩ false = .ok ix ∧
    ∃ w', processInstruction cfg .ex fenv tx (st 7) ix.program ix.accs ix.data = .ok w' := by
  obtain ⟨ix, hix⟩ := ok_of_isSome (x := (cache (st 7)).swapIx jup ⟨3000, 1996, 20, 22, 43, 42, 40⟩ false) (by decide +kernel)
  obtain ⟨p, hp⟩ := pool7
  have hlp := (total_inv hp).2.1
  have hq : (cache (st 7)).quote .ex ⟨3000, 20, 22, false⟩ = .ok ⟨3000, 1996, 22, 5, (8, 3002)⟩ := ok_of_toOption (by decide +kernel)
  exact ⟨ix, hix, C54_removeLiquidity cache_ready (st_reachable 7) (st_backed 7 (by decide)) st_active hp (q := ⟨3000, 20, 22, false⟩)
    hlp.symm (by rw [hlp]; decide) hq (by decide) (by decide) hix wallet42 (by rw [hlp]; exact wallet43) rfl (by decide) (SeenAs.refl _) tx⟩

end Ex

end S
