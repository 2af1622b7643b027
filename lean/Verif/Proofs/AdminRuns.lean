import Verif.Proofs.UserRuns
/-
Inversion of the privileged instructions.
-/
set_option autoImplicit false
namespace S

theorem processSetLstInput_inv {cfg : Cfg} {w w' : World} {accs : List Acc} {i flag : Nat}
    (h : processSetLstInput cfg w accs i flag = .ok w') :
    ∃ a s p, LstInputAccs.load accs = .ok a ∧ w.ctl.lsts[i]? = some s ∧ w.ctl.pool = some p ∧ a.admin.key = p.admin ∧
      a.admin.signer = true ∧ a.lstMint.key = s.mint ∧ p.isRebalancing = 0 ∧ p.isDisabled = 0 ∧
      w' = w.setLsts (w.ctl.lsts.set i { s with isInputDisabled := flag }) := by
  simp only [processSetLstInput, bind_ok, require_ok, exists_const, checkKeys_ok, checkWritable_ok, checkSigner_ok,
    okOr_ok, getPool_ok, verifyActive_ok, List.forall_mem_cons, pure_ok] at h
  obtain ⟨a, hl, _, _, s, hs, p, hp, ⟨k1, k2, _⟩, _, ⟨hsig, _⟩, ⟨hr, hd⟩, rfl⟩ := h
  exact ⟨a, s, p, hl, hs, hp, k1, hsig, k2, hr, hd, rfl⟩

/-- A successful AddLst. -/
structure AddLstRun (cfg : Cfg) (w : World) (accs : List Acc) (w' : World) where
  a : AddLstAccs
  p : PoolState
  m : Mint
  l1 : Ledger
  l2 : Ledger
  load : AddLstAccs.load accs = .ok a
  pool : w.ctl.pool = some p
  hm : w.led.mints a.lstMint.key = some m
  admin : a.admin.key = p.admin
  signer : a.admin.signer = true
  res : a.poolReserves.key = (cfg.findAta cfg.poolState m.program a.lstMint.key).1
  acc : a.protocolFeeAccumulator.key = (cfg.findAta cfg.protocolFee m.program a.lstMint.key).1
  auth : a.protocolFeeAccumulatorAuth.key = cfg.protocolFee
  pool_key : a.poolState.key = cfg.poolState
  tp : a.lstTokenProgram.key = m.program
  tp_ok : m.program = cfg.splToken ∨ m.program = cfg.token22
  exec : w.led.exec a.solValueCalculator.key = true
  fresh : ∀ s ∈ w.ctl.lsts, s.mint ≠ a.lstMint.key
  notReb : p.isRebalancing = 0
  notDis : p.isDisabled = 0
  c1 : createAtaIfNotExist cfg w.led a.poolReserves.key cfg.poolState m.program a.lstMint.key = .ok l1
  c2 : createAtaIfNotExist cfg l1 a.protocolFeeAccumulator.key cfg.protocolFee m.program a.lstMint.key = .ok l2
  wr : ∀ x ∈ [a.payer, a.poolReserves, a.protocolFeeAccumulator, a.protocolFeeAccumulatorAuth, a.lstStateList], x.writable = true
  eq : w' = ⟨{ w.ctl with lsts := w.ctl.lsts ++ [⟨0, (cfg.findAta cfg.poolState m.program a.lstMint.key).2,
    (cfg.findAta cfg.protocolFee m.program a.lstMint.key).2, 0, a.lstMint.key, a.solValueCalculator.key⟩] }, l2⟩

theorem processAddLst_inv {cfg : Cfg} {w w' : World} {accs : List Acc}
    (h : processAddLst cfg w accs = .ok w') : Nonempty (AddLstRun cfg w accs w') := by
  simp only [processAddLst, bind_ok, require_ok, exists_const, checkKeys_ok, checkWritable_ok, checkSigner_ok,
    getPool_ok, mintProgram_ok, verifyActive_ok, List.forall_mem_cons, pure_ok] at h
  obtain ⟨a, hl, _, p, hp, _, ⟨m, hm, rfl⟩, ⟨k1, k2, k3, k4, k5, _, _, _, k9, _⟩, hw, ⟨hsig, _⟩, htp, hex, hfr, ⟨hr, hd⟩,
    l1, h1, l2, h2, rfl⟩ := h
  rw [k5, k9] at h1
  rw [k4, k9] at h2
  exact ⟨{
    a, p, m, l1, l2, load := hl, pool := hp, hm, admin := k1, signer := hsig, res := k2, acc := k3, auth := k4,
    pool_key := k5, tp := k9, tp_ok := htp, exec := hex, fresh := hfr, notReb := hr, notDis := hd, c1 := h1, c2 := h2,
    wr := by simpa only [List.forall_mem_cons] using hw, eq := rfl }⟩

/-- A successful RemoveLst. -/
structure RemLstRun (cfg : Cfg) (w : World) (accs : List Acc) (i : Nat) (w' : World) where
  a : RemoveLstAccs
  p : PoolState
  s : LstState
  tp : Pubkey
  ra : TokenAcc
  fa : TokenAcc
  l1 : Ledger
  l2 : Ledger
  load : RemoveLstAccs.load accs = .ok a
  pool : w.ctl.pool = some p
  sel : LstSel cfg w i a.lstMint.key tp a.poolReserves.key s
  accum : cfg.ata cfg.protocolFee tp s.mint s.protocolFeeAccumulatorBump = some a.protocolFeeAccumulator.key
  admin : a.admin.key = p.admin
  signer : a.admin.signer = true
  notReb : p.isRebalancing = 0
  notDis : p.isDisabled = 0
  hra : w.led.tok a.poolReserves.key = some ra
  hfa : w.led.tok a.protocolFeeAccumulator.key = some fa
  sol0 : s.solValue = 0
  ra0 : ra.amount = 0
  fa0 : fa.amount = 0
  c1 : closeToken w.led a.protocolFeeAccumulator.key tp cfg.protocolFee = .ok l1
  c2 : closeToken l1 a.poolReserves.key tp cfg.poolState = .ok l2
  wr : ∀ x ∈ [a.refundRentTo, a.poolReserves, a.protocolFeeAccumulator, a.protocolFeeAccumulatorAuth, a.lstStateList], x.writable = true
  eq : w' = ⟨{ w.ctl with lsts := w.ctl.lsts.eraseIdx i }, l2⟩

theorem processRemoveLst_inv {cfg : Cfg} {w w' : World} {accs : List Acc} {i : Nat}
    (h : processRemoveLst cfg w accs i = .ok w') : Nonempty (RemLstRun cfg w accs i w') := by
  simp only [processRemoveLst, bind_ok, require_ok, exists_const, checkKeys_ok, checkWritable_ok, checkSigner_ok,
    getPool_ok, matchLst_ok, mintProgram_ok, poolReserves_ok, feeAccumulator_ok, verifyActive_ok, tokenBalance_ok,
    List.forall_mem_cons, pure_ok] at h
  obtain ⟨a, hl, _, _, s, ⟨hs, hsm⟩, tp, hprog, res, hres, acc, hacc, p, hp, ⟨k1, k2, k3, k4, k5, _, k7, _⟩, hw,
    ⟨hsig, _⟩, ⟨hr, hd⟩, _, ⟨ra, hra, rfl⟩, _, ⟨fa, hfa, rfl⟩, hz, l1, h1, l2, h2, rfl⟩ := h
  rw [k7, k4] at h1
  rw [k7, k5] at h2
  simp only [ne_eq, not_or, Decidable.not_not] at hz
  exact ⟨{
    a, p, s, tp, ra, fa, l1, l2, load := hl, pool := hp, sel := ⟨hs, hsm, hprog, k2 ▸ hres⟩, accum := k3 ▸ hacc,
    admin := k1, signer := hsig, notReb := hr, notDis := hd, hra, hfa, sol0 := hz.1, ra0 := hz.2.1, fa0 := hz.2.2,
    c1 := h1, c2 := h2, wr := by simpa only [List.forall_mem_cons] using hw, eq := rfl }⟩

/-- A successful SetSolValueCalculator. -/
structure SetCalcRun {cfg : Cfg} (env : Env cfg) (w : World) (accs : List Acc) (i : Nat) (w' : World) where
  a : SetCalcAccs
  suffix : List Acc
  p : PoolState
  s : LstState
  tp : Pubkey
  c : CalcCpi
  acc : TokenAcc
  r : Range
  load : SetCalcAccs.load accs = .ok (a, suffix)
  pool : w.ctl.pool = some p
  sel : LstSel cfg w i a.lstMint.key tp a.poolReserves.key s
  admin : a.admin.key = p.admin
  signer : a.admin.signer = true
  notReb : p.isRebalancing = 0
  notDis : p.isDisabled = 0
  cpi : CalcCpi.ofSuffix a.lstMint.key suffix = .ok c
  exec : w.led.exec c.program = true
  run : SyncRun env 0 (w.setLsts (w.ctl.lsts.set i { s with solValueCalculator := c.program })) a.poolReserves.key c i
    w' acc r

theorem processSetSolValueCalculator_inv {cfg : Cfg} {env : Env cfg} {w w' : World} {accs : List Acc} {i : Nat}
    (h : processSetSolValueCalculator cfg env w accs i = .ok w') : Nonempty (SetCalcRun env w accs i w') := by
  simp only [processSetSolValueCalculator, bind_ok, Prod.exists, require_ok, exists_const, checkKeys_ok,
    checkWritable_ok, checkSigner_ok, getPool_ok, matchLst_ok, mintProgram_ok, poolReserves_ok, verifyActive_ok,
    syncUnchecked_ok, List.forall_mem_cons] at h
  obtain ⟨a, suffix, hl, _, _, s, ⟨hs, hsm⟩, tp, hprog, res, hres, p, hp, ⟨k1, k2, k3, _⟩, _, ⟨hsig, _⟩, ⟨hr, hd⟩, c, hc,
    hex, acc, r, hrun⟩ := h
  exact ⟨{
    a, suffix, p, s, tp, c, acc, r, load := hl, pool := hp, sel := ⟨hs, hsm, hprog, k3 ▸ hres⟩, admin := k1,
    signer := hsig, notReb := hr, notDis := hd, cpi := hc, exec := hex, run := hrun }⟩

theorem processSetAdmin_inv {cfg : Cfg} {w w' : World} {accs : List Acc} (h : processSetAdmin cfg w accs = .ok w') :
    ∃ a p, SetAdminAccs.load accs = .ok a ∧ w.ctl.pool = some p ∧ a.currentAdmin.key = p.admin ∧
      a.currentAdmin.signer = true ∧ w' = w.setPool { p with admin := a.newAdmin.key } := by
  simp only [processSetAdmin, bind_ok, require_ok, exists_const, checkKeys_ok, checkWritable_ok, checkSigner_ok,
    getPool_ok, List.forall_mem_cons, pure_ok] at h
  obtain ⟨a, hl, _, p, hp, ⟨k1, _⟩, _, ⟨hsig, _⟩, rfl⟩ := h
  exact ⟨a, p, hl, hp, k1, hsig, rfl⟩

theorem processSetProtocolFee_inv {cfg : Cfg} {w w' : World} {accs : List Acc} {args : SetProtocolFeeArgs}
    (h : processSetProtocolFee cfg w accs args = .ok w') :
    ∃ a p, SetFeeAccs.load accs = .ok a ∧ w.ctl.pool = some p ∧ a.admin.key = p.admin ∧ a.admin.signer = true ∧
      p.isRebalancing = 0 ∧ p.isDisabled = 0 ∧ (∀ f ∈ args.newLpProtocolFeeBps, f ≤ BPS) ∧
      (∀ f ∈ args.newTradingProtocolFeeBps, f ≤ BPS) ∧
      w' = w.setPool { p with
        tradingProtocolFeeBps := args.newTradingProtocolFeeBps.getD p.tradingProtocolFeeBps
        lpProtocolFeeBps := args.newLpProtocolFeeBps.getD p.lpProtocolFeeBps } := by
  simp only [processSetProtocolFee, bind_ok, require_ok, exists_const, checkKeys_ok, checkWritable_ok, checkSigner_ok,
    getPool_ok, verifyActive_ok, List.forall_mem_cons, pure_ok] at h
  obtain ⟨a, hl, _, p, hp, ⟨k1, _⟩, _, ⟨hsig, _⟩, ⟨hr, hd⟩, f1, f2, rfl⟩ := h
  exact ⟨a, p, hl, hp, k1, hsig, hr, hd, f1, f2, rfl⟩

theorem processSetBeneficiary_inv {cfg : Cfg} {w w' : World} {accs : List Acc}
    (h : processSetBeneficiary cfg w accs = .ok w') :
    ∃ a p, SetBeneficiaryAccs.load accs = .ok a ∧ w.ctl.pool = some p ∧
      a.currentBeneficiary.key = p.protocolFeeBeneficiary ∧ a.currentBeneficiary.signer = true ∧
      p.isRebalancing = 0 ∧ p.isDisabled = 0 ∧
      w' = w.setPool { p with protocolFeeBeneficiary := a.newBeneficiary.key } := by
  simp only [processSetBeneficiary, bind_ok, require_ok, exists_const, checkKeys_ok, checkWritable_ok, checkSigner_ok,
    getPool_ok, verifyActive_ok, List.forall_mem_cons, pure_ok] at h
  obtain ⟨a, hl, _, p, hp, ⟨k1, _⟩, _, ⟨hsig, _⟩, ⟨hr, hd⟩, rfl⟩ := h
  exact ⟨a, p, hl, hp, k1, hsig, hr, hd, rfl⟩

theorem processSetPricing_inv {cfg : Cfg} {w w' : World} {accs : List Acc}
    (h : processSetPricing cfg w accs = .ok w') :
    ∃ a p, SetPricingAccs.load accs = .ok a ∧ w.ctl.pool = some p ∧ a.admin.key = p.admin ∧ a.admin.signer = true ∧
      p.isRebalancing = 0 ∧ p.isDisabled = 0 ∧ w.led.exec a.newPricingProgram.key = true ∧
      w' = w.setPool { p with pricingProgram := a.newPricingProgram.key } := by
  simp only [processSetPricing, bind_ok, require_ok, exists_const, checkKeys_ok, checkWritable_ok, checkSigner_ok,
    getPool_ok, verifyActive_ok, List.forall_mem_cons, pure_ok] at h
  obtain ⟨a, hl, _, p, hp, ⟨k1, _⟩, _, ⟨hsig, _⟩, hex, ⟨hr, hd⟩, rfl⟩ := h
  exact ⟨a, p, hl, hp, k1, hsig, hr, hd, hex, rfl⟩

/-- A successful WithdrawProtocolFees. -/
structure WithdrawRun (cfg : Cfg) (w : World) (accs : List Acc) (amount : Nat) (w' : World) where
  a : WithdrawAccs
  p : PoolState
  t : TokenAcc
  fa : TokenAcc
  l1 : Ledger
  load : WithdrawAccs.load accs = .ok a
  pool : w.ctl.pool = some p
  ht : w.led.tok a.withdrawTo.key = some t
  beneficiary : a.beneficiary.key = p.protocolFeeBeneficiary
  signer : a.beneficiary.signer = true
  accum : a.protocolFeeAccumulator.key = (cfg.findAta cfg.protocolFee t.program t.mint).1
  mint : a.lstMint.key = t.mint
  notReb : p.isRebalancing = 0
  notDis : p.isDisabled = 0
  hfa : w.led.tok a.protocolFeeAccumulator.key = some fa
  enough : amount ≤ fa.amount
  t1 : transfer w.led ⟨a.protocolFeeAccumulator.key, a.withdrawTo.key, t.program, cfg.protocolFee, t.mint⟩ amount
    = .ok l1
  wr : ∀ x ∈ [a.withdrawTo, a.protocolFeeAccumulator, a.protocolFeeAccumulatorAuth, a.poolState], x.writable = true
  eq : w' = { w with led := l1 }

theorem processWithdraw_inv {cfg : Cfg} {w w' : World} {accs : List Acc} {amount : Nat}
    (h : processWithdraw cfg w accs amount = .ok w') : Nonempty (WithdrawRun cfg w accs amount w') := by
  simp only [processWithdraw, bind_ok, require_ok, exists_const, checkKeys_ok, checkWritable_ok, checkSigner_ok,
    okOr_ok, getPool_ok, verifyActive_ok, tokenBalance_ok, List.forall_mem_cons, pure_ok] at h
  obtain ⟨a, hl, _, t, ht, p, hp, ⟨k1, k2, k3, k4, _, k6, _⟩, hw, ⟨hsig, _⟩, ⟨hr, hd⟩, _, ⟨fa, hfa, rfl⟩, hen, l1, h1,
    rfl⟩ := h
  rw [k4, k3, k6] at h1
  exact ⟨{
    a, p, t, fa, l1, load := hl, pool := hp, ht, beneficiary := k1, signer := hsig, accum := k2, mint := k6,
    notReb := hr, notDis := hd, hfa, enough := hen, t1 := h1, wr := by simpa only [List.forall_mem_cons] using hw, eq := rfl }⟩

theorem processAddAuth_inv {cfg : Cfg} {w w' : World} {accs : List Acc} (h : processAddAuth cfg w accs = .ok w') :
    ∃ a p, AddAuthAccs.load accs = .ok a ∧ w.ctl.pool = some p ∧ a.admin.key = p.admin ∧ a.admin.signer = true ∧
      a.newAuthority.key ∉ w.ctl.auths ∧
      w' = { w with ctl := { w.ctl with auths := w.ctl.auths ++ [a.newAuthority.key] } } := by
  simp only [processAddAuth, bind_ok, require_ok, exists_const, checkKeys_ok, checkWritable_ok, checkSigner_ok,
    getPool_ok, List.forall_mem_cons, pure_ok] at h
  obtain ⟨a, hl, _, p, hp, ⟨k1, _⟩, _, ⟨_, hsig, _⟩, hni, rfl⟩ := h
  exact ⟨a, p, hl, hp, k1, hsig, hni, rfl⟩

theorem processRemoveAuth_inv {cfg : Cfg} {w w' : World} {accs : List Acc} {i : Nat}
    (h : processRemoveAuth cfg w accs i = .ok w') :
    ∃ a p, RemoveAuthAccs.load accs = .ok a ∧ w.ctl.pool = some p ∧ w.ctl.auths[i]? = some a.authority.key ∧
      a.signer.signer = true ∧ (a.signer.key = p.admin ∨ a.signer.key = a.authority.key) ∧
      w' = { w with ctl := { w.ctl with auths := w.ctl.auths.eraseIdx i } } := by
  simp only [processRemoveAuth, bind_ok, require_ok, exists_const, checkKeys_ok, checkWritable_ok, checkSigner_ok,
    okOr_ok, getPool_ok, verifyAdminOrAuth_ok, List.forall_mem_cons, pure_ok] at h
  obtain ⟨a, hl, _, _, au, hau, ⟨k1, _⟩, _, ⟨hsig, _⟩, p, hp, _, hor, rfl⟩ := h
  exact ⟨a, p, hl, hp, k1 ▸ hau, hsig, hor, rfl⟩

theorem processDisablePool_inv {cfg : Cfg} {w w' : World} {accs : List Acc}
    (h : processDisablePool cfg w accs = .ok w') :
    ∃ a p, DisablePoolAccs.load accs = .ok a ∧ w.ctl.pool = some p ∧ a.signer.signer = true ∧
      p.isRebalancing = 0 ∧ p.isDisabled = 0 ∧ (a.signer.key = p.admin ∨ a.signer.key ∈ w.ctl.auths) ∧
      w' = w.setPool { p with isDisabled := 1 } := by
  simp only [processDisablePool, bind_ok, exists_const, checkKeys_ok, checkWritable_ok, checkSigner_ok,
    getPool_ok, verifyActive_ok, verifyAdminOrAuth_ok, List.forall_mem_cons, pure_ok] at h
  obtain ⟨a, hl, _, _, ⟨hsig, _⟩, p, hp, ⟨hr, hd⟩, hor, rfl⟩ := h
  exact ⟨a, p, hl, hp, hsig, hr, hd, hor, rfl⟩

theorem processEnablePool_inv {cfg : Cfg} {w w' : World} {accs : List Acc}
    (h : processEnablePool cfg w accs = .ok w') :
    ∃ a p, EnablePoolAccs.load accs = .ok a ∧ w.ctl.pool = some p ∧ a.admin.key = p.admin ∧ a.admin.signer = true ∧
      p.isDisabled ≠ 0 ∧ w' = w.setPool { p with isDisabled := 0 } := by
  simp only [processEnablePool, bind_ok, require_ok, exists_const, checkKeys_ok, checkWritable_ok, checkSigner_ok,
    getPool_ok, List.forall_mem_cons, pure_ok] at h
  obtain ⟨a, hl, _, p, hp, ⟨k1, _⟩, _, ⟨hsig, _⟩, hd, rfl⟩ := h
  exact ⟨a, p, hl, hp, k1, hsig, hd, rfl⟩

theorem processSetRebAuth_inv {cfg : Cfg} {w w' : World} {accs : List Acc}
    (h : processSetRebAuth cfg w accs = .ok w') :
    ∃ a p, SetRebAuthAccs.load accs = .ok a ∧ w.ctl.pool = some p ∧ a.signer.signer = true ∧
      p.isRebalancing = 0 ∧ p.isDisabled = 0 ∧ (a.signer.key = p.admin ∨ a.signer.key = p.rebalanceAuthority) ∧
      w' = w.setPool { p with rebalanceAuthority := a.newRebalanceAuthority.key } := by
  simp only [processSetRebAuth, bind_ok, require_ok, exists_const, checkKeys_ok, checkWritable_ok, checkSigner_ok,
    getPool_ok, verifyActive_ok, List.forall_mem_cons, pure_ok] at h
  obtain ⟨a, hl, _, _, ⟨hsig, _⟩, p, hp, ⟨hr, hd⟩, hor, rfl⟩ := h
  exact ⟨a, p, hl, hp, hsig, hr, hd, hor, rfl⟩

/-- A successful Initialize. -/
structure InitRun (cfg : Cfg) (w : World) (accs : List Acc) (w' : World) where
  a : InitializeAccs
  m : Mint
  l1 : Ledger
  l2 : Ledger
  load : InitializeAccs.load accs = .ok a
  authority : a.authority.key = cfg.initialAuthority
  signer : a.authority.signer = true
  hm : w.led.mints a.lpTokenMint.key = some m
  prog : m.program = cfg.splToken
  supply0 : m.supply = 0
  decimals : m.decimals = 9
  fresh : w.ctl.pool = none
  s1 : setMintAuth w.led a.lpTokenMint.key cfg.splToken cfg.initialAuthority cfg.poolState = .ok l1
  s2 : setFreezeAuth l1 a.lpTokenMint.key cfg.splToken cfg.initialAuthority cfg.poolState = .ok l2
  wr : ∀ x ∈ [a.payer, a.poolState, a.lpTokenMint], x.writable = true
  eq : w' = ⟨{ w.ctl with pool := some ⟨0, 1000, 1000, 1, 0, 0, cfg.initialAuthority, cfg.initialAuthority,
    cfg.initialAuthority, cfg.flatFeeProgram, a.lpTokenMint.key⟩ }, l2⟩

theorem processInitialize_inv {cfg : Cfg} {w w' : World} {accs : List Acc}
    (h : processInitialize cfg w accs = .ok w') : Nonempty (InitRun cfg w accs w') := by
  simp only [processInitialize, bind_ok, require_ok, exists_const, checkKeys_ok, checkWritable_ok, checkSigner_ok,
    okOr_ok, List.forall_mem_cons, pure_ok] at h
  obtain ⟨a, hl, ⟨k1, k2, k3, _⟩, hw, ⟨_, hsig, _⟩, m, hm, hprog, hsup, hdec, hfr, l1, h1, l2, h2, rfl⟩ := h
  rw [k1, k2, k3] at h1 h2
  exact ⟨{
    a, m, l1, l2, load := hl, authority := k1, signer := hsig, hm, prog := hprog, supply0 := hsup, decimals := hdec,
    fresh := hfr, s1 := h1, s2 := h2, wr := by simpa only [List.forall_mem_cons] using hw, eq := by rw [k1] }⟩

/-! ### Rebalancing -/

/-- A successful StartRebalance. -/
structure StartRun {cfg : Cfg} (env : Env cfg) (tx : TxInfo) (w : World) (accs : List Acc)
    (args : StartRebalanceArgs) (w' : World) where
  a : StartRebAccs
  suffix : List Acc
  c : SrcDstCpis
  p : PoolState
  src : LstState
  dst : LstState
  srcTp : Pubkey
  dstTp : Pubkey
  sa : TokenAcc
  da : TokenAcc
  load : StartRebAccs.load accs = .ok (a, suffix)
  srcSel : LstSel cfg w args.srcLstIndex a.srcLstMint.key srcTp a.srcPoolReserves.key src
  dstSel : LstSel cfg w args.dstLstIndex a.dstLstMint.key dstTp a.dstPoolReserves.key dst
  pool : w.ctl.pool = some p
  auth : a.rebalanceAuthority.key = p.rebalanceAuthority
  signer : a.rebalanceAuthority.signer = true
  hsa : w.led.tok a.srcPoolReserves.key = some sa
  minSrc : args.minStartingSrcLst ≤ sa.amount
  hda : w.led.tok a.dstPoolReserves.key = some da
  maxDst : da.amount ≤ args.maxStartingDstLst
  notReb : p.isRebalancing = 0
  notDis : p.isDisabled = 0
  inputEnabled : dst.isInputDisabled = 0
  cpis : verifySrcDstCpis w.ctl.lsts a.srcLstMint.key a.dstLstMint.key suffix args.srcLstCalcAccs
    args.srcLstIndex args.dstLstIndex = .ok c
  succ : verifySucceedingEnd cfg tx a.dstLstMint.key = .ok ()
  w1 : World
  acc0 : TokenAcc
  r0 : Range
  sync0 : SyncRun env 0 w a.srcPoolReserves.key c.src args.srcLstIndex w1 acc0 r0
  w2 : World
  acc1 : TokenAcc
  r1 : Range
  sync1 : SyncRun env 1 w1 a.dstPoolReserves.key c.dst args.dstLstIndex w2 acc1 r1
  p2 : PoolState
  pool2 : w2.ctl.pool = some p2
  l3 : Ledger
  t1 : transfer w2.led ⟨a.srcPoolReserves.key, a.withdrawTo.key, srcTp, cfg.poolState, a.srcLstMint.key⟩ args.amount
    = .ok l3
  w3 : World
  acc2 : TokenAcc
  r2 : Range
  sync2 : SyncRun env 2 { w2 with led := l3 } a.srcPoolReserves.key c.src args.srcLstIndex w3 acc2 r2
  noRec : w3.ctl.rebal = none
  p3 : PoolState
  pool3 : w3.ctl.pool = some p3
  wr : ∀ x ∈ [a.poolState, a.lstStateList, a.rebalanceRecord, a.srcPoolReserves, a.dstPoolReserves, a.withdrawTo], x.writable = true
  eq : w' = { w3 with ctl := { w3.ctl with
    rebal := some ⟨p2.totalSolValue, args.dstLstIndex⟩, pool := some { p3 with isRebalancing := 1 } } }

theorem processStartRebalance_inv {cfg : Cfg} {env : Env cfg} {tx : TxInfo} {w w' : World} {accs : List Acc}
    {args : StartRebalanceArgs} (h : processStartRebalance cfg env tx w accs args = .ok w') :
    Nonempty (StartRun env tx w accs args w') := by
  simp only [processStartRebalance, verifyStartRebalance, bind_ok, Prod.exists, require_ok, exists_const, checkKeys_ok,
    checkWritable_ok, checkSigner_ok, getPool_ok, matchLst_ok, mintProgram_ok, poolReserves_ok, verifyActive_ok,
    verifyInputEnabled_ok, tokenBalance_ok, syncUnchecked_ok, totalSolValue_ok, List.forall_mem_cons, pure_ok] at h
  obtain ⟨a, suffix, hl, c, ⟨_, _, src, ⟨hs, hsm⟩, srcTp, hsp, srcRes, hsr, dst, ⟨hd, hdm⟩, dstTp, hdp, dstRes, hdr, p,
    hp, ⟨k1, k2, _, _, _, _, k7, k8, _, _, k11, _⟩, hw, ⟨hsig, _⟩, _, ⟨sa, hsa, rfl⟩, hmin, _, ⟨da, hda, rfl⟩, hmax,
    ⟨hr, hdis⟩, hin, c', hc, _, hsucc, rfl⟩, w1, ⟨acc0, r0, h0⟩, w2, ⟨acc1, r1, h1⟩, _, ⟨p2, hp2, rfl⟩, l3, ht,
    w3, ⟨acc2, r2, h2⟩, hnr, p3, hp3, rfl⟩ := h
  rw [k2, k11] at ht
  exact ⟨{
    a, suffix, c := c', p, src, dst, srcTp, dstTp, sa, da, load := hl, srcSel := ⟨hs, hsm, hsp, k7 ▸ hsr⟩,
    dstSel := ⟨hd, hdm, hdp, k8 ▸ hdr⟩, pool := hp, auth := k1, signer := hsig, hsa, minSrc := hmin, hda,
    maxDst := hmax, notReb := hr, notDis := hdis, inputEnabled := hin, cpis := hc, succ := hsucc, w1, acc0, r0,
    sync0 := h0, w2, acc1, r1, sync1 := h1, p2, pool2 := hp2, l3, t1 := ht, w3, acc2, r2, sync2 := h2, noRec := hnr,
    p3, pool3 := hp3, wr := by simpa only [List.forall_mem_cons] using hw, eq := rfl }⟩

/-- A successful EndRebalance. -/
structure EndRun {cfg : Cfg} (env : Env cfg) (w : World) (accs : List Acc) (w' : World) where
  a : EndRebAccs
  suffix : List Acc
  c : CalcCpi
  p : PoolState
  rr : RebalanceRecord
  dst : LstState
  tp : Pubkey
  load : EndRebAccs.load accs = .ok (a, suffix)
  pool : w.ctl.pool = some p
  record : w.ctl.rebal = some rr
  sel : LstSel cfg w rr.dstLstIndex a.dstLstMint.key tp a.dstPoolReserves.key dst
  auth : a.rebalanceAuthority.key = p.rebalanceAuthority
  signer : a.rebalanceAuthority.signer = true
  reb : p.isRebalancing ≠ 0
  cpi : verifyCalcCpi w.ctl.lsts a.dstLstMint.key suffix rr.dstLstIndex = .ok c
  w1 : World
  acc : TokenAcc
  r : Range
  sync0 : SyncRun env 0 { w with ctl := { w.ctl with pool := some { p with isRebalancing := 0 } } }
    a.dstPoolReserves.key c rr.dstLstIndex w1 acc r
  p1 : PoolState
  pool1 : w1.ctl.pool = some p1
  noLoss : rr.oldTotalSolValue ≤ p1.totalSolValue
  eq : w' = { w1 with ctl := { w1.ctl with rebal := none } }

theorem processEndRebalance_inv {cfg : Cfg} {env : Env cfg} {w w' : World} {accs : List Acc}
    (h : processEndRebalance cfg env w accs = .ok w') : Nonempty (EndRun env w accs w') := by
  simp only [processEndRebalance, bind_ok, Prod.exists, require_ok, exists_const, checkKeys_ok,
    checkWritable_ok, checkSigner_ok, okOr_ok, getPool_ok, matchLst_ok, mintProgram_ok, poolReserves_ok,
    syncUnchecked_ok, totalSolValue_ok, List.forall_mem_cons, pure_ok] at h
  obtain ⟨a, suffix, hl, _, _, _, p, hp, rr, hrr, dst, ⟨hd, hdm⟩, tp, hprog, res, hres, ⟨k1, _, _, _, _, k6, _⟩, _,
    ⟨hsig, _⟩, hreb, c, hc, w1, ⟨acc, r, h0⟩, _, ⟨p1, hp1, rfl⟩, hno, rfl⟩ := h
  exact ⟨{
    a, suffix, c, p, rr, dst, tp, load := hl, pool := hp, record := hrr, sel := ⟨hd, hdm, hprog, k6 ▸ hres⟩,
    auth := k1, signer := hsig, reb := hreb, cpi := hc, w1, acc, r, sync0 := h0, p1, pool1 := hp1, noLoss := hno,
    eq := rfl }⟩

end S
