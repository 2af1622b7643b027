import Verif.Props.Client
/-
Forward direction: when the permissionless instructions succeed. Used by C54.
-/
set_option autoImplicit false
namespace S

/-! ### Verification of the accounts -/

/-- The accounts of a swap are those the program will derive. -/
structure SwapKeysOk (cfg : Cfg) (w : World) (k : SwapKeys) (i j : Nat) (src dst pricing : Callee) (p : PoolState) (s d : LstState) :
    Prop where
  poolKey : k.poolState = cfg.poolState
  listKey : k.lstStateList = cfg.lstStateList
  pool : w.ctl.pool = some p
  notReb : p.isRebalancing = 0
  notDis : p.isDisabled = 0
  srcEntry : w.ctl.lsts[i]? = some s
  dstEntry : w.ctl.lsts[j]? = some d
  srcMint : s.mint = k.srcLstMint
  dstMint : d.mint = k.dstLstMint
  ne : k.srcLstMint ≠ k.dstLstMint
  inputOk : s.isInputDisabled = 0
  srcProg : ∃ m, w.led.mints k.srcLstMint = some m ∧ m.program = k.srcLstTokenProgram
  dstProg : ∃ m, w.led.mints k.dstLstMint = some m ∧ m.program = k.dstLstTokenProgram
  srcRes : cfg.ata cfg.poolState k.srcLstTokenProgram s.mint s.poolReservesBump = some k.srcPoolReserves
  dstRes : cfg.ata cfg.poolState k.dstLstTokenProgram d.mint d.poolReservesBump = some k.dstPoolReserves
  accum : cfg.ata cfg.protocolFee k.dstLstTokenProgram d.mint d.protocolFeeAccumulatorBump = some k.protocolFeeAccumulator
  srcCalc : src.program = s.solValueCalculator
  dstCalc : dst.program = d.solValueCalculator
  pricingProg : pricing.program = p.pricingProgram
  srcMetas : ∃ r, src.metas = roMeta k.srcLstMint :: r
  dstMetas : ∃ r, dst.metas = roMeta k.dstLstMint :: r
  pricingMetas : ∃ r, pricing.metas = roMeta k.srcLstMint :: roMeta k.dstLstMint :: r

theorem verifyCalcCpi_live {ls : List LstState} {mint : Pubkey} {i : Nat} {c : Callee} {rest slice : List Acc} {s : LstState}
    (hm : c.metas = roMeta mint :: rest) (hs : SeenAs (roMeta c.program :: c.metas.drop 1) slice) (he : ls[i]? = some s)
    (hp : c.program = s.solValueCalculator) : ∃ x, verifyCalcCpi ls mint slice i = .ok x ∧ c.Is x.program x.metas := by
  obtain ⟨y, l', rfl, e, h⟩ := hs.cons_inv
  have : verifyCalcCpi ls mint (y :: l') i = .ok ⟨y.key, mint, l'⟩ :=
    verifyCalcCpi_ok.2 ⟨y, l', s, rfl, rfl, he, e.key.trans hp⟩
  exact ⟨_, this, calc_is' hm (.cons e h) this⟩

theorem verifyPriceLp_live {p : PoolState} {mint : Pubkey} {c : Callee} {rest slice : List Acc}
    (hm : c.metas = roMeta mint :: rest) (hs : SeenAs (roMeta c.program :: c.metas.drop 1) slice)
    (hp : c.program = p.pricingProgram) : ∃ x, verifyPriceCpi p [mint] slice = .ok x ∧ c.Is x.program x.metas := by
  obtain ⟨y, l', rfl, e, h⟩ := hs.cons_inv
  have : verifyPriceCpi p [mint] (y :: l') = .ok ⟨y.key, [mint], l'⟩ :=
    verifyPriceCpi_ok.2 ⟨y, l', rfl, rfl, e.key.trans hp⟩
  exact ⟨_, this, priceLp_is hm (.cons e h) this⟩

theorem verifyPriceSwap_live {p : PoolState} {m1 m2 : Pubkey} {c : Callee} {rest slice : List Acc}
    (hm : c.metas = roMeta m1 :: roMeta m2 :: rest) (hs : SeenAs (roMeta c.program :: c.metas.drop 2) slice)
    (hp : c.program = p.pricingProgram) : ∃ x, verifyPriceCpi p [m1, m2] slice = .ok x ∧ c.Is x.program x.metas := by
  obtain ⟨y, l', rfl, e, h⟩ := hs.cons_inv
  have : verifyPriceCpi p [m1, m2] (y :: l') = .ok ⟨y.key, [m1, m2], l'⟩ :=
    verifyPriceCpi_ok.2 ⟨y, l', rfl, rfl, e.key.trans hp⟩
  exact ⟨_, this, priceSwap_is hm (.cons e h) this⟩

/-- The accounts loaded are the ones listed. -/
structure SwapAccs.Are (a : SwapAccs) (k : SwapKeys) : Prop where
  signer : a.signer.key = k.signer
  srcLstMint : a.srcLstMint.key = k.srcLstMint
  dstLstMint : a.dstLstMint.key = k.dstLstMint
  srcLstAcc : a.srcLstAcc.key = k.srcLstAcc
  dstLstAcc : a.dstLstAcc.key = k.dstLstAcc
  accum : a.protocolFeeAccumulator.key = k.protocolFeeAccumulator
  srcTp : a.srcLstTokenProgram.key = k.srcLstTokenProgram
  dstTp : a.dstLstTokenProgram.key = k.dstLstTokenProgram
  pool : a.poolState.key = k.poolState
  list : a.lstStateList.key = k.lstStateList
  srcRes : a.srcPoolReserves.key = k.srcPoolReserves
  dstRes : a.dstPoolReserves.key = k.dstPoolReserves

theorem verifySwap_live {cfg : Cfg} {w : World} {k : SwapKeys} {i j : Nat} {src dst pricing : Callee} {p : PoolState} {s d : LstState}
    (h : SwapKeysOk cfg w k i j src dst pricing p s d) {accs : List Acc}
    (hseen : SeenAs (k.metas ++ (roMeta src.program :: src.metas.drop 1 ++ roMeta dst.program :: dst.metas.drop 1 ++
      roMeta pricing.program :: pricing.metas.drop 2)) accs) :
    ∃ a suf c, SwapAccs.load accs = .ok (a, suf) ∧ verifySwap cfg w a suf src.metas.length dst.metas.length i j = .ok c ∧ a.Are k ∧
      src.Is c.src.program c.src.metas ∧ dst.Is c.dst.program c.dst.metas ∧ pricing.Is c.pricing.program c.pricing.metas := by
  obtain ⟨a, suf, hl, hk, hsuf⟩ := seen_swap hseen
  obtain ⟨sd, pr, rfl, hsd, hpr⟩ := hsuf.split
  obtain ⟨sa, da, rfl, hsa, hda⟩ := hsd.split
  obtain ⟨_, hsm⟩ := h.srcMetas
  obtain ⟨_, hdm⟩ := h.dstMetas
  obtain ⟨_, hpm⟩ := h.pricingMetas
  obtain ⟨x, hx, hxi⟩ := verifyCalcCpi_live hsm hsa h.srcEntry h.srcCalc
  obtain ⟨y, hy, hyi⟩ := verifyCalcCpi_live hdm hda h.dstEntry h.dstCalc
  obtain ⟨z, hz, hzi⟩ := verifyPriceSwap_live hpm hpr h.pricingProg
  simp only [SwapKeys.metas, SwapAccs.list, SeenAs, List.forall₂_cons] at hk
  obtain ⟨k1, k2, k3, k4, k5, k6, k7, k8, k9, k10, k11, k12, -⟩ := hk
  have hare : a.Are k := ⟨k1.key, k2.key, k3.key, k4.key, k5.key, k6.key, k7.key, k8.key, k9.key, k10.key, k11.key, k12.key⟩
  refine ⟨a, _, ⟨x, y, z⟩, hl, ?_, hare, hxi, hyi, hzi⟩
  simp only [verifySwap, bind_ok, require_ok, exists_const, checkKeys_ok, checkWritable_ok, checkSigner_ok,
    matchLst_ok, mintProgram_ok, poolReserves_ok, feeAccumulator_ok, getPool_ok, verifyActive_ok,
    verifyInputEnabled_ok, List.forall_mem_cons, hare.srcLstMint, hare.dstLstMint]
  refine ⟨hare.list.trans h.listKey, s, ⟨h.srcEntry, h.srcMint⟩, _, h.srcProg, _, h.srcRes, d, ⟨h.dstEntry, h.dstMint⟩, _,
    h.dstProg, _, h.dstRes, _, h.accum, ⟨hare.accum, hare.srcTp, hare.dstTp, hare.pool.trans h.poolKey, hare.list.trans h.listKey,
    hare.srcRes, hare.dstRes, by simp⟩, ⟨k4.writable rfl, k5.writable rfl, k6.writable rfl, k9.writable rfl, k10.writable rfl,
    k11.writable rfl, k12.writable rfl, by simp⟩, ⟨k1.signer rfl, by simp⟩, h.ne, p, h.pool, ⟨h.notReb, h.notDis⟩, h.inputOk, ?_⟩
  rw [swap_split (tail_len hsm hsa) (tail_len hdm hda), hx, hy, hz]
  rfl

/-- The accounts of a liquidity instruction are those the program will derive. -/
structure LiqKeysOk (cfg : Cfg) (w : World) (k : LiqKeys) (i : Nat) (calculator pricing : Callee) (p : PoolState) (s : LstState) :
    Prop where
  poolKey : k.poolState = cfg.poolState
  listKey : k.lstStateList = cfg.lstStateList
  lpProg : k.lpTokenProgram = cfg.splToken
  lpMint : k.lpTokenMint = p.lpTokenMint
  pool : w.ctl.pool = some p
  notReb : p.isRebalancing = 0
  notDis : p.isDisabled = 0
  entry : w.ctl.lsts[i]? = some s
  mint : s.mint = k.lstMint
  prog : ∃ m, w.led.mints k.lstMint = some m ∧ m.program = k.lstTokenProgram
  res : cfg.ata cfg.poolState k.lstTokenProgram s.mint s.poolReservesBump = some k.poolReserves
  accum : cfg.ata cfg.protocolFee k.lstTokenProgram s.mint s.protocolFeeAccumulatorBump = some k.protocolFeeAccumulator
  calcProg : calculator.program = s.solValueCalculator
  pricingProg : pricing.program = p.pricingProgram
  calcMetas : ∃ r, calculator.metas = roMeta k.lstMint :: r
  pricingMetas : ∃ r, pricing.metas = roMeta k.lstMint :: r

structure LiqAccs.Are (a : LiqAccs) (k : LiqKeys) : Prop where
  signer : a.signer.key = k.signer
  lstMint : a.lstMint.key = k.lstMint
  userLst : a.userLst.key = k.userLst
  userLp : a.userLp.key = k.userLp
  lpMint : a.lpTokenMint.key = k.lpTokenMint
  accum : a.protocolFeeAccumulator.key = k.protocolFeeAccumulator
  tp : a.lstTokenProgram.key = k.lstTokenProgram
  lpTp : a.lpTokenProgram.key = k.lpTokenProgram
  pool : a.poolState.key = k.poolState
  list : a.lstStateList.key = k.lstStateList
  res : a.poolReserves.key = k.poolReserves

theorem verifyLiq_live {cfg : Cfg} {w : World} {k : LiqKeys} {i : Nat} {calculator pricing : Callee} {p : PoolState} {s : LstState}
    (h : LiqKeysOk cfg w k i calculator pricing p s) {accs : List Acc} {checkInput : Bool}
    (hin : checkInput = true → s.isInputDisabled = 0)
    (hseen : SeenAs (k.metas ++ (roMeta calculator.program :: calculator.metas.drop 1 ++
      roMeta pricing.program :: pricing.metas.drop 1)) accs) :
    ∃ a suf c, LiqAccs.load accs = .ok (a, suf) ∧ verifyLiq cfg w a suf calculator.metas.length i checkInput = .ok c ∧ a.Are k ∧
      calculator.Is c.lst.program c.lst.metas ∧ pricing.Is c.pricing.program c.pricing.metas := by
  obtain ⟨a, suf, hl, hk, hsuf⟩ := seen_liq hseen
  obtain ⟨sa, pr, rfl, hsa, hpr⟩ := hsuf.split
  obtain ⟨_, hsm⟩ := h.calcMetas
  obtain ⟨_, hpm⟩ := h.pricingMetas
  obtain ⟨x, hx, hxi⟩ := verifyCalcCpi_live hsm hsa h.entry h.calcProg
  obtain ⟨z, hz, hzi⟩ := verifyPriceLp_live hpm hpr h.pricingProg
  simp only [LiqKeys.metas, LiqAccs.list, SeenAs, List.forall₂_cons] at hk
  obtain ⟨k1, k2, k3, k4, k5, k6, k7, k8, k9, k10, k11, -⟩ := hk
  have hare : a.Are k := ⟨k1.key, k2.key, k3.key, k4.key, k5.key, k6.key, k7.key, k8.key, k9.key, k10.key, k11.key⟩
  refine ⟨a, _, ⟨x, z⟩, hl, ?_, hare, hxi, hzi⟩
  simp only [verifyLiq, bind_ok, require_ok, exists_const, checkKeys_ok, checkWritable_ok, checkSigner_ok,
    matchLst_ok, mintProgram_ok, poolReserves_ok, feeAccumulator_ok, getPool_ok, verifyActive_ok,
    List.forall_mem_cons, hare.lstMint]
  refine ⟨hare.pool.trans h.poolKey, hare.list.trans h.listKey, s, ⟨h.entry, h.mint⟩, _, h.prog, _, h.res, _, h.accum, p, h.pool,
    ⟨hare.lpMint.trans h.lpMint, hare.accum, hare.tp, hare.lpTp.trans h.lpProg, hare.pool.trans h.poolKey,
    hare.list.trans h.listKey, hare.res, by simp⟩, ⟨k3.writable rfl, k4.writable rfl, k5.writable rfl, k6.writable rfl,
    k9.writable rfl, k10.writable rfl, k11.writable rfl, by simp⟩, ⟨k1.signer rfl, by simp⟩, ⟨h.notReb, h.notDis⟩, ?_, ?_⟩
  · intro hc; have := hin hc; simp [isTrue, this]
  rw [lp_split (tail_len hsm hsa), hx, hz]
  rfl

end S
