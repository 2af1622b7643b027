import Verif.Proofs.Small
/-
Inversion of the permissionless instructions: everything a successful run passed through, as named facts.
-/
set_option autoImplicit false
namespace S

/-- A listed LST as selected by an instruction: entry `s` at index `i`, its mint's token program, its reserves and
fee accumulator addresses. -/
structure LstSel (cfg : Cfg) (w : World) (i : Nat) (mint tp res : Pubkey) (s : LstState) : Prop where
  get : w.ctl.lsts[i]? = some s
  mint_eq : s.mint = mint
  prog : ∃ m, w.led.mints mint = some m ∧ m.program = tp
  res_eq : cfg.ata cfg.poolState tp s.mint s.poolReservesBump = some res

/-- A calculator call set up for entry `s`. -/
structure CalcSel (c : CalcCpi) (mint : Pubkey) (s : LstState) : Prop where
  program : c.program = s.solValueCalculator
  mint_eq : c.mint = mint

theorem verifyCalcCpi_sel {ls : List LstState} {m : Pubkey} {suf : List Acc} {i : Nat} {c : CalcCpi} {s : LstState}
    (h : verifyCalcCpi ls m suf i = .ok c) (hs : ls[i]? = some s) : CalcSel c m s := by
  obtain ⟨a, r, s', _, rfl, hs', hp⟩ := verifyCalcCpi_ok.1 h
  rw [hs] at hs'; injection hs' with hs'; subst hs'
  exact ⟨hp, rfl⟩

/-- A successful SyncSolValue. -/
structure SyncIxRun {cfg : Cfg} (env : Env cfg) (w : World) (accs : List Acc) (i : Nat) (w' : World) where
  a : SyncAccs
  suffix : List Acc
  c : CalcCpi
  p : PoolState
  s : LstState
  tp : Pubkey
  acc : TokenAcc
  r : Range
  load : SyncAccs.load accs = .ok (a, suffix)
  sel : LstSel cfg w i a.lstMint.key tp a.poolReserves.key s
  pool : w.ctl.pool = some p
  notReb : p.isRebalancing = 0
  notDis : p.isDisabled = 0
  cpi : verifyCalcCpi w.ctl.lsts a.lstMint.key suffix i = .ok c
  calc_sel : CalcSel c a.lstMint.key s
  run : SyncRun env 0 w a.poolReserves.key c i w' acc r

theorem processSync_inv {cfg : Cfg} {env : Env cfg} {w w' : World} {accs : List Acc} {i : Nat}
    (h : processSync cfg env w accs i = .ok w') : Nonempty (SyncIxRun env w accs i w') := by
  simp only [processSync, verifySync, bind_ok, Prod.exists, require_ok, exists_const, checkKeys_ok, checkWritable_ok,
    matchLst_ok, mintProgram_ok, poolReserves_ok, getPool_ok, verifyActive_ok, List.forall_mem_cons,
    syncUnchecked_ok] at h
  obtain ⟨a, suffix, hl, c, ⟨_, s, ⟨hs, hm⟩, tp, hprog, res, hres, ⟨_, _, _, hk, _⟩, _, p, hp, ⟨ha1, ha2⟩, hc⟩,
    acc, r, hr⟩ := h
  exact ⟨{
    a, suffix, c, p, s, tp, acc, r, load := hl, sel := ⟨hs, hm, hprog, hk ▸ hres⟩, pool := hp, notReb := ha1,
    notDis := ha2, cpi := hc, calc_sel := verifyCalcCpi_sel hc hs, run := hr }⟩

/-- What both swap instructions check first. -/
structure SwapVerified (cfg : Cfg) (w : World) (accs : List Acc) (srcAccs dstAccs srcIdx dstIdx : Nat)
    (a : SwapAccs) (suffix : List Acc) (c : SwapCpis) (p : PoolState) (src dst : LstState) (srcTp dstTp : Pubkey) :
    Prop where
  load : SwapAccs.load accs = .ok (a, suffix)
  srcSel : LstSel cfg w srcIdx a.srcLstMint.key srcTp a.srcPoolReserves.key src
  dstSel : LstSel cfg w dstIdx a.dstLstMint.key dstTp a.dstPoolReserves.key dst
  accum : cfg.ata cfg.protocolFee dstTp dst.mint dst.protocolFeeAccumulatorBump = some a.protocolFeeAccumulator.key
  srcTp_eq : a.srcLstTokenProgram.key = srcTp
  dstTp_eq : a.dstLstTokenProgram.key = dstTp
  pool_key : a.poolState.key = cfg.poolState
  signer : a.signer.signer = true
  mints_ne : a.srcLstMint.key ≠ a.dstLstMint.key
  pool : w.ctl.pool = some p
  notReb : p.isRebalancing = 0
  notDis : p.isDisabled = 0
  inputEnabled : src.isInputDisabled = 0
  cpis : verifySwapCpis w.ctl.lsts p a.srcLstMint.key a.dstLstMint.key suffix srcAccs dstAccs srcIdx dstIdx = .ok c
  wr : ∀ x ∈ [a.srcLstAcc, a.dstLstAcc, a.protocolFeeAccumulator, a.poolState, a.lstStateList, a.srcPoolReserves, a.dstPoolReserves],
    x.writable = true

theorem verifySwap_inv {cfg : Cfg} {w : World} {accs : List Acc} {srcAccs dstAccs srcIdx dstIdx : Nat}
    {a : SwapAccs} {suffix : List Acc} {c : SwapCpis} (hl : SwapAccs.load accs = .ok (a, suffix))
    (h : verifySwap cfg w a suffix srcAccs dstAccs srcIdx dstIdx = .ok c) :
    ∃ p src dst srcTp dstTp,
      SwapVerified cfg w accs srcAccs dstAccs srcIdx dstIdx a suffix c p src dst srcTp dstTp := by
  simp only [verifySwap, bind_ok, require_ok, exists_const, checkKeys_ok, checkWritable_ok, checkSigner_ok,
    matchLst_ok, mintProgram_ok, poolReserves_ok, feeAccumulator_ok, getPool_ok, verifyActive_ok,
    verifyInputEnabled_ok, List.forall_mem_cons] at h
  obtain ⟨_, src, ⟨hs, hsm⟩, srcTp, hsp, srcRes, hsr, dst, ⟨hd, hdm⟩, dstTp, hdp, dstRes, hdr, acc, hacc,
    ⟨k1, k2, k3, k4, _, k6, k7, _⟩, hw, ⟨hsig, _⟩, hne, p, hp, ⟨hr, hdis⟩, hin, hc⟩ := h
  exact ⟨p, src, dst, srcTp, dstTp, hl, ⟨hs, hsm, hsp, k6 ▸ hsr⟩, ⟨hd, hdm, hdp, k7 ▸ hdr⟩, k1 ▸ hacc, k2, k3, k4,
    hsig, hne, hp, hr, hdis, hin, hc, by simpa only [List.forall_mem_cons] using hw⟩

/-- The end of both swap instructions: token movements, syncs, final check. -/
structure FinishSwap {cfg : Cfg} (env : Env cfg) (w : World) (a : SwapAccs) (c : SwapCpis)
    (srcIdx dstIdx startTotal srcIn dstOut fee : Nat) (w' : World) where
  bal : TokenAcc
  l1 : Ledger
  l2 : Ledger
  l3 : Ledger
  w4 : World
  sacc : TokenAcc
  sr : Range
  dacc : TokenAcc
  dr : Range
  p' : PoolState
  fits : dstOut + fee < U64
  hbal : w.led.tok a.dstPoolReserves.key = some bal
  enough : dstOut + fee ≤ bal.amount
  t1 : transfer w.led ⟨a.srcLstAcc.key, a.srcPoolReserves.key, a.srcLstTokenProgram.key, a.signer.key,
    a.srcLstMint.key⟩ srcIn = .ok l1
  t2 : transfer l1 ⟨a.dstPoolReserves.key, a.protocolFeeAccumulator.key, a.dstLstTokenProgram.key,
    a.poolState.key, a.dstLstMint.key⟩ fee = .ok l2
  t3 : transfer l2 ⟨a.dstPoolReserves.key, a.dstLstAcc.key, a.dstLstTokenProgram.key,
    a.poolState.key, a.dstLstMint.key⟩ dstOut = .ok l3
  sync5 : SyncRun env 5 { w with led := l3 } a.srcPoolReserves.key c.src srcIdx w4 sacc sr
  sync6 : SyncRun env 6 w4 a.dstPoolReserves.key c.dst dstIdx w' dacc dr
  pool' : w'.ctl.pool = some p'
  noLoss : startTotal ≤ p'.totalSolValue

theorem finishSwap_inv {cfg : Cfg} {env : Env cfg} {w : World} {a : SwapAccs} {c : SwapCpis}
    {srcIdx dstIdx startTotal srcIn dstOut fee : Nat} {w' : World}
    (h : finishSwap env w a c srcIdx dstIdx startTotal srcIn dstOut fee = .ok w') :
    Nonempty (FinishSwap env w a c srcIdx dstIdx startTotal srcIn dstOut fee w') := by
  simp only [finishSwap, bind_ok, require_ok, exists_const, addU64_ok, tokenBalance_ok, syncUnchecked_ok,
    totalSolValue_ok, pure_ok] at h
  obtain ⟨_, ⟨rfl, hf⟩, _, ⟨bal, hb, rfl⟩, hen, l1, h1, l2, h2, l3, h3, w4, ⟨sacc, sr, h5⟩, w5, ⟨dacc, dr, h6⟩, _,
    ⟨p', hp', rfl⟩, hno, rfl⟩ := h
  exact ⟨{
    bal, l1, l2, l3, w4, sacc, sr, dacc, dr, p', fits := hf, hbal := hb, enough := hen, t1 := h1, t2 := h2,
    t3 := h3, sync5 := h5, sync6 := h6, pool' := hp', noLoss := hno }⟩

/-- The part of a successful swap common to exact-in and exact-out. -/
structure SwapRun {cfg : Cfg} (L : RatioLib) (env : Env cfg) (w : World) (accs : List Acc)
    (srcAccs dstAccs srcIdx dstIdx srcIn dstOut : Nat) (w' : World) where
  a : SwapAccs
  suffix : List Acc
  c : SwapCpis
  p : PoolState
  src : LstState
  dst : LstState
  srcTp : Pubkey
  dstTp : Pubkey
  ver : SwapVerified cfg w accs srcAccs dstAccs srcIdx dstIdx a suffix c p src dst srcTp dstTp
  w1 : World
  sacc : TokenAcc
  sr : Range
  sync0 : SyncRun env 0 w a.srcPoolReserves.key c.src srcIdx w1 sacc sr
  w2 : World
  dacc : TokenAcc
  dr : Range
  sync1 : SyncRun env 1 w1 a.dstPoolReserves.key c.dst dstIdx w2 dacc dr
  p2 : PoolState
  pool2 : w2.ctl.pool = some p2
  l3 : Ledger
  l4 : Ledger
  l5 : Ledger
  ext3 : w2.led.ExtOk cfg l3
  ext4 : l3.ExtOk cfg l4
  ext5 : l4.ExtOk cfg l5
  inSol : Nat
  outSol : Nat
  fee : Nat
  hfee : calcSwapProtocolFees L inSol outSol dstOut p2.tradingProtocolFeeBps = .ok fee
  fin : FinishSwap env { w2 with led := l5 } a c srcIdx dstIdx p2.totalSolValue srcIn dstOut fee w'

/-- A successful SwapExactIn. -/
structure SwapInRun {cfg : Cfg} (L : RatioLib) (env : Env cfg) (w : World) (accs : List Acc)
    (args : SwapExactInArgs) (w' : World) (out : Nat) extends
    SwapRun L env w accs args.srcLstValueCalcAccs args.dstLstValueCalcAccs args.srcLstIndex args.dstLstIndex
      args.amount out w' where
  nonzero : args.amount ≠ 0
  rIn : Range
  rOut : Range
  ask2 : env.askCalc 2 w2 c.src.program c.src.metas (.lstToSol args.amount) = .ok (rIn, l3)
  inSol_eq : inSol = rIn.min
  inSol_ne : inSol ≠ 0
  inSol_lt : inSol < U64
  ask3 : env.askPrice 3 { w2 with led := l3 } c.pricing.program c.pricing.metas (.exactIn args.amount inSol)
    = .ok (outSol, l4)
  outSol_lt : outSol < U64
  ask4 : env.askCalc 4 { w2 with led := l4 } c.dst.program c.dst.metas (.solToLst outSol) = .ok (rOut, l5)
  out_eq : out = rOut.min
  out_lt : out < U64
  minOut : args.minAmountOut ≤ out
  out_ne : out ≠ 0

theorem processSwapExactIn_inv {cfg : Cfg} {L : RatioLib} {env : Env cfg} {w w' : World} {accs : List Acc}
    {args : SwapExactInArgs} (h : processSwapExactIn cfg L env w accs args = .ok w') :
    ∃ out, Nonempty (SwapInRun L env w accs args w' out) := by
  simp only [processSwapExactIn, bind_ok, Prod.exists, require_ok, exists_const, syncUnchecked_ok, totalSolValue_ok,
    calcAsk_ok, priceAsk_ok, getPool_ok] at h
  obtain ⟨hnz, a, suffix, hl, c, hver, w1, ⟨sacc, sr, hs0⟩, w2, ⟨dacc, dr, hs1⟩, _, ⟨p2, hp2, rfl⟩, rIn, w3,
    ⟨l3, hq2, hlt2, _, rfl⟩, hinne, outSol, w4, ⟨l4, hq3, hlt3, rfl⟩, rOut, w5, ⟨l5, hq4, hlt4, _, rfl⟩, hmin, hne, p5,
    hp5, fee, hfee, hfin⟩ := h
  obtain ⟨p, src, dst, srcTp, dstTp, hv⟩ := verifySwap_inv hl hver
  obtain ⟨fin⟩ := finishSwap_inv hfin
  dsimp only at hp5
  rw [hp2] at hp5; injection hp5 with hp5; subst hp5
  exact ⟨rOut.min, ⟨{
    a, suffix, c, p, src, dst, srcTp, dstTp, ver := hv, w1, sacc, sr, sync0 := hs0, w2, dacc, dr,
    sync1 := hs1, p2, pool2 := hp2, l3, l4, l5, ext3 := env.calc_ext hq2, ext4 := env.price_ext hq3,
    ext5 := env.calc_ext hq4, inSol := rIn.min, outSol, fee, hfee, fin, nonzero := hnz, rIn, rOut, ask2 := hq2,
    inSol_eq := rfl, inSol_ne := hinne, inSol_lt := hlt2, ask3 := hq3, outSol_lt := hlt3, ask4 := hq4, out_eq := rfl,
    out_lt := hlt4, minOut := hmin, out_ne := hne }⟩⟩

/-- A successful SwapExactOut. -/
structure SwapOutRun {cfg : Cfg} (L : RatioLib) (env : Env cfg) (w : World) (accs : List Acc)
    (args : SwapExactOutArgs) (w' : World) (srcIn : Nat) extends
    SwapRun L env w accs args.srcLstValueCalcAccs args.dstLstValueCalcAccs args.srcLstIndex args.dstLstIndex
      srcIn args.amount w' where
  nonzero : args.amount ≠ 0
  maxNonzero : args.maxAmountIn ≠ 0
  rOut : Range
  rIn : Range
  ask2 : env.askCalc 2 w2 c.dst.program c.dst.metas (.lstToSol args.amount) = .ok (rOut, l3)
  outSol_eq : outSol = rOut.max
  outSol_ne : outSol ≠ 0
  outSol_lt : outSol < U64
  ask3 : env.askPrice 3 { w2 with led := l3 } c.pricing.program c.pricing.metas (.exactOut args.amount outSol)
    = .ok (inSol, l4)
  inSol_lt : inSol < U64
  ask4 : env.askCalc 4 { w2 with led := l4 } c.src.program c.src.metas (.solToLst inSol) = .ok (rIn, l5)
  in_eq : srcIn = rIn.max
  in_lt : srcIn < U64
  maxIn : srcIn ≤ args.maxAmountIn
  in_ne : srcIn ≠ 0

theorem processSwapExactOut_inv {cfg : Cfg} {L : RatioLib} {env : Env cfg} {w w' : World} {accs : List Acc}
    {args : SwapExactOutArgs} (h : processSwapExactOut cfg L env w accs args = .ok w') :
    ∃ srcIn, Nonempty (SwapOutRun L env w accs args w' srcIn) := by
  simp only [processSwapExactOut, bind_ok, Prod.exists, require_ok, exists_const, syncUnchecked_ok, totalSolValue_ok,
    calcAsk_ok, priceAsk_ok, getPool_ok] at h
  obtain ⟨⟨hnz, hnz'⟩, a, suffix, hl, c, hver, w1, ⟨sacc, sr, hs0⟩, w2, ⟨dacc, dr, hs1⟩, _, ⟨p2, hp2, rfl⟩, rOut, w3,
    ⟨l3, hq2, _, hlt2, rfl⟩, hone, inSol, w4, ⟨l4, hq3, hlt3, rfl⟩, rIn, w5, ⟨l5, hq4, _, hlt4, rfl⟩, hmax, hne, p5,
    hp5, fee, hfee, hfin⟩ := h
  obtain ⟨p, src, dst, srcTp, dstTp, hv⟩ := verifySwap_inv hl hver
  obtain ⟨fin⟩ := finishSwap_inv hfin
  dsimp only at hp5
  rw [hp2] at hp5; injection hp5 with hp5; subst hp5
  exact ⟨rIn.max, ⟨{
    a, suffix, c, p, src, dst, srcTp, dstTp, ver := hv, w1, sacc, sr, sync0 := hs0, w2, dacc, dr,
    sync1 := hs1, p2, pool2 := hp2, l3, l4, l5, ext3 := env.calc_ext hq2, ext4 := env.price_ext hq3,
    ext5 := env.calc_ext hq4, inSol, outSol := rOut.max, fee, hfee, fin, nonzero := hnz, maxNonzero := hnz', rIn, rOut,
    ask2 := hq2, outSol_eq := rfl, outSol_ne := hone, outSol_lt := hlt2, ask3 := hq3, inSol_lt := hlt3, ask4 := hq4,
    in_eq := rfl, in_lt := hlt4, maxIn := hmax, in_ne := hne }⟩⟩

/-- What both liquidity instructions check first. -/
structure LiqVerified (cfg : Cfg) (w : World) (accs : List Acc) (calcAccs i : Nat) (checkInput : Bool)
    (a : LiqAccs) (suffix : List Acc) (c : LpCpis) (p : PoolState) (s : LstState) (tp : Pubkey) : Prop where
  load : LiqAccs.load accs = .ok (a, suffix)
  sel : LstSel cfg w i a.lstMint.key tp a.poolReserves.key s
  accum : cfg.ata cfg.protocolFee tp s.mint s.protocolFeeAccumulatorBump = some a.protocolFeeAccumulator.key
  lpMint : a.lpTokenMint.key = p.lpTokenMint
  tp_eq : a.lstTokenProgram.key = tp
  lpTp_eq : a.lpTokenProgram.key = cfg.splToken
  pool_key : a.poolState.key = cfg.poolState
  signer : a.signer.signer = true
  pool : w.ctl.pool = some p
  notReb : p.isRebalancing = 0
  notDis : p.isDisabled = 0
  inputEnabled : checkInput = true → s.isInputDisabled = 0
  cpis : verifyLpCpis w.ctl.lsts p a.lstMint.key suffix calcAccs i = .ok c
  wr : ∀ x ∈ [a.userLst, a.userLp, a.lpTokenMint, a.protocolFeeAccumulator, a.poolState, a.lstStateList, a.poolReserves], x.writable = true

theorem verifyLiq_inv {cfg : Cfg} {w : World} {accs : List Acc} {calcAccs i : Nat} {checkInput : Bool}
    {a : LiqAccs} {suffix : List Acc} {c : LpCpis} (hl : LiqAccs.load accs = .ok (a, suffix))
    (h : verifyLiq cfg w a suffix calcAccs i checkInput = .ok c) :
    ∃ p s tp, LiqVerified cfg w accs calcAccs i checkInput a suffix c p s tp := by
  simp only [verifyLiq, bind_ok, require_ok, exists_const, checkKeys_ok, checkWritable_ok, checkSigner_ok,
    matchLst_ok, mintProgram_ok, poolReserves_ok, feeAccumulator_ok, getPool_ok, verifyActive_ok,
    List.forall_mem_cons] at h
  obtain ⟨_, _, s, ⟨hs, hsm⟩, tp, hprog, res, hres, acc, hacc, p, hp, ⟨k1, k2, k3, k4, k5, _, k7, _⟩, hw, ⟨hsig, _⟩,
    ⟨hr, hd⟩, hin, hc⟩ := h
  exact ⟨p, s, tp, hl, ⟨hs, hsm, hprog, k7 ▸ hres⟩, k2 ▸ hacc, k1, k3, k4, k5, hsig, hp, hr, hd,
    fun h => by have := hin h; simpa using this, hc, by simpa only [List.forall_mem_cons] using hw⟩

/-- A successful AddLiquidity. -/
structure AddLiqRun {cfg : Cfg} (L : RatioLib) (env : Env cfg) (w : World) (accs : List Acc)
    (args : AddLiquidityArgs) (w' : World) where
  a : LiqAccs
  suffix : List Acc
  c : LpCpis
  p : PoolState
  s : LstState
  tp : Pubkey
  nonzero : args.lstAmount ≠ 0
  ver : LiqVerified cfg w accs args.lstValueCalcAccs args.lstIndex true a suffix c p s tp
  w1 : World
  acc0 : TokenAcc
  r0 : Range
  sync0 : SyncRun env 0 w a.poolReserves.key c.lst args.lstIndex w1 acc0 r0
  p1 : PoolState
  pool1 : w1.ctl.pool = some p1
  v : Range
  l2 : Ledger
  ask1 : env.askCalc 1 w1 c.lst.program c.lst.metas (.lstToSol args.lstAmount) = .ok (v, l2)
  v_lt : v.min < U64
  vAfter : Nat
  l3 : Ledger
  ask2 : env.askPrice 2 { w1 with led := l2 } c.pricing.program c.pricing.metas
    (.lpTokensToMint args.lstAmount v.min) = .ok (vAfter, l3)
  vAfter_lt : vAfter < U64
  vAfter_le : vAfter ≤ v.min
  fees : AddLiquidityFees
  hfees : calcAddLiquidityProtocolFees L args.lstAmount v.min vAfter p1.lpProtocolFeeBps = .ok fees
  lpMint : Mint
  hlpMint : l3.mints a.lpTokenMint.key = some lpMint
  lp : Nat
  hlp : calcLpTokensToMint L ⟨lpMint.supply, p1.totalSolValue⟩ vAfter = .ok lp
  toReserves_ne : fees.toReserves ≠ 0
  lp_ne : lp ≠ 0
  minLp : args.minLpOut ≤ lp
  l4 : Ledger
  l5 : Ledger
  l6 : Ledger
  t1 : transfer l3 ⟨a.userLst.key, a.poolReserves.key, a.lstTokenProgram.key, a.signer.key, a.lstMint.key⟩
    fees.toReserves = .ok l4
  t2 : transfer l4 ⟨a.userLst.key, a.protocolFeeAccumulator.key, a.lstTokenProgram.key, a.signer.key,
    a.lstMint.key⟩ fees.toProtocolFees = .ok l5
  t3 : mintTo l5 a.lpTokenMint.key a.userLp.key a.lpTokenProgram.key a.poolState.key lp = .ok l6
  acc3 : TokenAcc
  r3 : Range
  sync3 : SyncRun env 3 { w1 with led := l6 } a.poolReserves.key c.lst args.lstIndex w' acc3 r3
  p' : PoolState
  pool' : w'.ctl.pool = some p'
  noLoss : p1.totalSolValue ≤ p'.totalSolValue

theorem processAddLiquidity_inv {cfg : Cfg} {L : RatioLib} {env : Env cfg} {w w' : World} {accs : List Acc}
    {args : AddLiquidityArgs} (h : processAddLiquidity cfg L env w accs args = .ok w') :
    Nonempty (AddLiqRun L env w accs args w') := by
  simp only [processAddLiquidity, bind_ok, Prod.exists, require_ok, exists_const, syncUnchecked_ok, totalSolValue_ok,
    calcAsk_ok, priceAsk_ok, getPool_ok, mintSupply_ok, pure_ok] at h
  obtain ⟨hnz, a, suffix, hl, c, hver, w1, ⟨acc0, r0, hs0⟩, _, ⟨p1, hp1, rfl⟩, v, w2, ⟨l2, hq1, hv, _, rfl⟩, vAfter, w3,
    ⟨l3, hq2, hva, rfl⟩, hle, p3, hp3, fees, hfees, _, ⟨m, hm, rfl⟩, lp, hlp, ⟨hrne, hlpne⟩, hmin, l4, h4, l5, h5, l6, h6,
    w7, ⟨acc3, r3, hs3⟩, _, ⟨p', hp', rfl⟩, hno, rfl⟩ := h
  obtain ⟨p, s, tp, hv'⟩ := verifyLiq_inv hl hver
  dsimp only at hp3
  rw [hp1] at hp3; injection hp3 with hp3; subst hp3
  exact ⟨{
    a, suffix, c, p, s, tp, nonzero := hnz, ver := hv', w1, acc0, r0, sync0 := hs0, p1, pool1 := hp1, v, l2,
    ask1 := hq1, v_lt := hv, vAfter, l3, ask2 := hq2, vAfter_lt := hva, vAfter_le := hle, fees, hfees, lpMint := m,
    hlpMint := hm, lp, hlp, toReserves_ne := hrne, lp_ne := hlpne, minLp := hmin, l4, l5, l6, t1 := h4, t2 := h5,
    t3 := h6, acc3, r3, sync3 := hs3, p', pool' := hp', noLoss := hno }⟩

/-- A successful RemoveLiquidity. -/
structure RemLiqRun {cfg : Cfg} (L : RatioLib) (env : Env cfg) (w : World) (accs : List Acc)
    (args : RemoveLiquidityArgs) (w' : World) where
  a : LiqAccs
  suffix : List Acc
  c : LpCpis
  p : PoolState
  s : LstState
  tp : Pubkey
  nonzero : args.lpTokenAmount ≠ 0
  ver : LiqVerified cfg w accs args.lstValueCalcAccs args.lstIndex false a suffix c p s tp
  w1 : World
  acc0 : TokenAcc
  r0 : Range
  sync0 : SyncRun env 0 w a.poolReserves.key c.lst args.lstIndex w1 acc0 r0
  p1 : PoolState
  pool1 : w1.ctl.pool = some p1
  lpMint : Mint
  hlpMint : w1.led.mints a.lpTokenMint.key = some lpMint
  v : Nat
  hv : calcLpTokensSolValue L ⟨lpMint.supply, p1.totalSolValue⟩ args.lpTokenAmount = .ok v
  vAfter : Nat
  l2 : Ledger
  ask1 : env.askPrice 1 w1 c.pricing.program c.pricing.metas (.lpTokensToRedeem args.lpTokenAmount v)
    = .ok (vAfter, l2)
  vAfter_lt : vAfter < U64
  vAfter_le : vAfter ≤ v
  out : Range
  l3 : Ledger
  ask2 : env.askCalc 2 { w1 with led := l2 } c.lst.program c.lst.metas (.solToLst vAfter) = .ok (out, l3)
  out_lt : out.min < U64
  fee : Nat
  hfee : calcRemoveLiquidityProtocolFees L v vAfter out.min p1.lpProtocolFeeBps = .ok fee
  out_ne : out.min ≠ 0
  minOut : args.minLstOut ≤ out.min
  l4 : Ledger
  l5 : Ledger
  l6 : Ledger
  t1 : burn l3 a.lpTokenMint.key a.userLp.key a.lpTokenProgram.key a.signer.key args.lpTokenAmount = .ok l4
  t2 : transfer l4 ⟨a.poolReserves.key, a.userLst.key, a.lstTokenProgram.key, a.poolState.key, a.lstMint.key⟩
    out.min = .ok l5
  t3 : transfer l5 ⟨a.poolReserves.key, a.protocolFeeAccumulator.key, a.lstTokenProgram.key, a.poolState.key,
    a.lstMint.key⟩ fee = .ok l6
  acc3 : TokenAcc
  r3 : Range
  sync3 : SyncRun env 3 { w1 with led := l6 } a.poolReserves.key c.lst args.lstIndex w' acc3 r3

theorem processRemoveLiquidity_inv {cfg : Cfg} {L : RatioLib} {env : Env cfg} {w w' : World} {accs : List Acc}
    {args : RemoveLiquidityArgs} (h : processRemoveLiquidity cfg L env w accs args = .ok w') :
    Nonempty (RemLiqRun L env w accs args w') := by
  simp only [processRemoveLiquidity, bind_ok, Prod.exists, require_ok, exists_const, syncUnchecked_ok,
    calcAsk_ok, priceAsk_ok, getPool_ok, mintSupply_ok] at h
  obtain ⟨hnz, a, suffix, hl, c, hver, w1, ⟨acc0, r0, hs0⟩, p1, hp1, _, ⟨m, hm, rfl⟩, v, hv, vAfter, w2,
    ⟨l2, hq1, hva, rfl⟩, hle, out, w3, ⟨l3, hq2, hout, _, rfl⟩, fee, hfee, hone, hmin, l4, h4, l5, h5, l6, h6,
    acc3, r3, hs3⟩ := h
  obtain ⟨p, s, tp, hv'⟩ := verifyLiq_inv hl hver
  exact ⟨{
    a, suffix, c, p, s, tp, nonzero := hnz, ver := hv', w1, acc0, r0, sync0 := hs0, p1, pool1 := hp1,
    lpMint := m, hlpMint := hm, v, hv, vAfter, l2, ask1 := hq1, vAfter_lt := hva, vAfter_le := hle, out, l3,
    ask2 := hq2, out_lt := hout, fee, hfee, out_ne := hone, minOut := hmin, l4, l5, l6, t1 := h4, t2 := h5, t3 := h6,
    acc3, r3, sync3 := hs3 }⟩

end S
