import Verif.Props.Deployed
import Verif.Proofs.JupEffect
import Verif.Props.JupSwap
import Verif.Props.JupRefresh
import Verif.Props.Stale
/-
C89: refresh the Jupiter cache, quote, execute, with the programs of the repository deployed together.
-/
set_option autoImplicit false
namespace S

/-! ### Specification -/

/-- The stake pool calculators the library knows. -/
def JupCfg.poolCfgs (J : JupCfg) : List PoolCfg := [J.lido, J.marinade, J.spl .spl, J.spl .sanctumSpl, J.spl .sanctumSplMulti]

/-- The programs the library quotes for, deployed together (with the no-fee pricing program, which it does not know). -/
def JupCfg.sys (J : JupCfg) (noFee : Pubkey)
    (distinct : (J.cfg.programId :: J.fc.programId :: noFee :: J.wsolProgram :: J.poolCfgs.map PoolCfg.programId).Nodup) : SysCfg :=
  ⟨J.cfg, J.fc, J.poolCfgs, J.wsolProgram, J.wsolMint, noFee, distinct⟩

section
variable {J : JupCfg} {noFee : Pubkey} {dist : (J.cfg.programId :: J.fc.programId :: noFee :: J.wsolProgram :: J.poolCfgs.map PoolCfg.programId).Nodup}

/-- The calculators and stake pools of the listed LSTs are in working order. Whether a stake pool is up to date, or paused, is not part of this: the library
sees that for itself. -/
structure Sys.InOrder (L : RatioLib) (list : List SanctumLst) (s : Sys (J.sys noFee dist)) (o : Outside (J.sys noFee dist)) : Prop where
  /-- No stake pool program was upgraded since the manager of the calculator last reviewed it. -/
  reviewed : ∀ x ∈ s.world.ctl.lsts, ∀ pc ∈ J.poolCfgs, x.solValueCalculator = pc.programId →
    ∃ st, s.calc L pc = some st ∧ PoolCode pc o.chain pc.poolProgData ∧ DeployedAt o.chain pc.poolProgData st.lastUpgradeSlot
  /-- The accounts of Lido and Marinade are what they should be (the library does not check their type). -/
  lido : ∀ x ∈ s.world.ctl.lsts, x.mint = J.lidoMint → ∃ y, LidoAt o.chain J.lidoState y
  marinade : ∀ x ∈ s.world.ctl.lsts, x.mint = J.msolMint → ∃ y, MarinadeAt o.chain J.marinadeState y
  /-- The stake pools of the Sanctum list belong to the stake pool program (the library does not check their owner). -/
  spl : ∀ x ∈ s.world.ctl.lsts, ∀ e ∈ list, e.mint = x.mint → ∀ kind p, e.pool = .spl kind p → o.chain.owner p = (J.spl kind).poolProgram
  /-- The figures of the stake pools are within the stake pool programs' own bounds. -/
  sound : ∀ x ∈ s.world.ctl.lsts, ∀ c, ChainFigures J list o.chain x.mint c → c.Usable

/-- There is room for the trade: for a deposit, the reserves and the LP supply do not overflow; for a swap, the reserves do not overflow, and the pool
does not lose by it; a deposit or a redemption yields something. -/
def SPool.Room (L : RatioLib) (S : SPool) (lpMint : Pubkey) (q : QuoteParams) (Q : Quote) : Prop :=
  if q.inputMint = lpMint then 0 < Q.outAmount
  else if q.outputMint = lpMint then 0 < Q.outAmount ∧ S.DepositFits L q.inputMint q.amount ∧ ∀ n, S.lpSupply = some n → n + Q.outAmount < U64
  else S.SwapFits L q.inputMint q.outputMint Q.inAmount ∧
    ∀ fee, S.ProtocolFee L q Q fee → S.Keeps L q.inputMint q.outputMint Q.inAmount (Q.outAmount + fee)

/-! ### Proofs -/

theorem AnyCalc.reply_lst {L : RatioLib} {c : AnyCalc} {a : Nat} {r : Range} : c.reply L (.lstToSol a) = .ok r ↔ (c.calculator L).lstToSol a = .ok r := Iff.rfl
theorem AnyCalc.reply_sol {L : RatioLib} {c : AnyCalc} {a : Nat} {r : Range} : c.reply L (.solToLst a) = .ok r ↔ (c.calculator L).solToLst a = .ok r := Iff.rfl

theorem SplKind.mem_poolCfgs (J : JupCfg) (k : SplKind) : J.spl k ∈ J.poolCfgs := by cases k <;> simp [JupCfg.poolCfgs]

variable {L : RatioLib} {list : List SanctumLst}

theorem serves_pool {s : Sys (J.sys noFee dist)} {o : Outside (J.sys noFee dist)} {pc : PoolCfg} (hpc : pc ∈ J.poolCfgs) {mint pool : Pubkey} {c : AnyCalc}
    {st : CalcState} (hu : UsablePool pc o.chain pool mint c) (hst : s.calc L pc = some st) (hc : PoolCode pc o.chain pc.poolProgData)
    (hd : DeployedAt o.chain pc.poolProgData st.lastUpgradeSlot) : (s.env L o).Serves L ⟨pc.programId, poolMetas pc mint pool⟩ c := by
  intro n w ms hms
  have hm := SeenAs.conversion hms
  exact ⟨fun a r hr => s.asked_pool o hpc hu hc hst hd (q := .lstToSol a) hm hr n w, fun a r hr => s.asked_pool o hpc hu hc hst hd (q := .solToLst a) hm hr n w⟩

theorem sys_calcsServed (s : Sys (J.sys noFee dist)) (o : Outside (J.sys noFee dist)) : CalcsServed J L (s.env L o) o.chain where
  lido := ⟨_, s.served o (pc := J.lido) (by simp [JupCfg.sys, JupCfg.poolCfgs])⟩
  marinade := ⟨_, s.served o (pc := J.marinade) (by simp [JupCfg.sys, JupCfg.poolCfgs])⟩
  spl := fun k => ⟨_, s.served o (pc := J.spl k) (SplKind.mem_poolCfgs J k)⟩
  wsol := by
    intro n w ms r l _
    exact ⟨fun a h => (s.served_wsol o h).2, fun a h => (s.served_wsol o h).2⟩

/-- The calculators of the deployed system answer for the figures a cache has from the chain. -/
theorem sys_serves {s : Sys (J.sys noFee dist)} {o : Outside (J.sys noFee dist)} {S : SPool} (ho : s.InOrder L list o) (hc : CacheInv J list S)
    (hl : S.lstList.lsts = .ok s.world.ctl.lsts) (hep : S.epoch = o.chain.epoch)
    (hfig : ∀ (i : Nat) x d c, s.world.ctl.lsts[i]? = some x → S.data[i]? = some (some d) → d.solCalc.figures = some c → ChainFigures J list o.chain x.mint c) :
    ∀ (i : Nat) x d c, s.world.ctl.lsts[i]? = some x → S.data[i]? = some (some d) → d.solCalc.usable S.epoch = .ok c →
      c.Usable ∧ (s.env L o).Serves L ⟨x.solValueCalculator, d.solCalc.ixAccounts J⟩ c := by
  obtain ⟨lsts, hl', hlen, hal⟩ := hc.aligned
  obtain rfl : s.world.ctl.lsts = lsts := by rw [hl] at hl'; cases hl'; rfl
  intro i x d c hx hd hus
  have hmem := List.mem_of_getElem? hx
  obtain ⟨am, ap⟩ := hal i x d hx hd
  obtain ⟨e, hfind, htp, hof⟩ := hc.from_list d (List.mem_of_getElem? hd)
  have hel := List.mem_of_find?_eq_some hfind
  have hem : e.mint = x.mint := by have := List.find?_some hfind; simpa [am] using this
  have hfig := hfig i x d
  obtain ⟨sc, rs, tp⟩ := d
  cases sc with
  | wsol =>
    simp only [KnownCalc.usable, pure_ok] at hus
    subst hus
    refine ⟨ho.sound x hmem _ (hfig _ hx hd rfl), ?_⟩
    intro n w ms hms
    have hk : ms.head?.map Acc.key = some J.wsolMint := by
      obtain ⟨y, l, rfl, e, -⟩ := hms.cons_inv
      simpa [roMeta] using e.key
    rw [← ap]
    exact ⟨fun a r hr => s.asked_wsol o (q := .lstToSol a) hk hr n w, fun a r hr => s.asked_wsol o (q := .solToLst a) hk hr n w⟩
  | lido f =>
    simp only [KnownCalc.usable, bind_ok, okOr_ok, pure_ok, LidoCalc.verifyUpdated, require_ok, exists_const] at hus
    obtain ⟨y, rfl, hup, rfl⟩ := hus
    have hcf := hfig _ hx hd rfl
    refine ⟨ho.sound x hmem _ hcf, ?_⟩
    simp only [KnownCalc.lstMint, KnownCalc.programId] at am ap
    obtain ⟨z, hz⟩ := ho.lido x hmem am.symm
    have e1 := readLido_unchecked (readLido_ok.2 hz)
    rw [hcf.2] at e1; cases e1
    obtain ⟨st, hst, hco, hde⟩ := ho.reviewed x hmem J.lido (by simp [JupCfg.poolCfgs]) ap.symm
    rw [← ap]
    refine serves_pool (by simp [JupCfg.poolCfgs]) ?_ hst hco hde
    unfold UsablePool
    rw [J.lido_kind]
    exact ⟨y, rfl, rfl, rfl, hz, hup.trans hep⟩
  | marinade f =>
    simp only [KnownCalc.usable, bind_ok, okOr_ok, pure_ok, MarinadeCalc.verifyCanWithdrawStake, require_ok, exists_const] at hus
    obtain ⟨y, rfl, hup, rfl⟩ := hus
    have hcf := hfig _ hx hd rfl
    refine ⟨ho.sound x hmem _ hcf, ?_⟩
    simp only [KnownCalc.lstMint, KnownCalc.programId] at am ap
    obtain ⟨z, hz⟩ := ho.marinade x hmem am.symm
    have e1 := readMarinade_unchecked (readMarinade_ok.2 hz)
    rw [hcf.2] at e1; cases e1
    obtain ⟨st, hst, hco, hde⟩ := ho.reviewed x hmem J.marinade (by simp [JupCfg.poolCfgs]) ap.symm
    rw [← ap]
    refine serves_pool (by simp [JupCfg.poolCfgs]) ?_ hst hco hde
    unfold UsablePool
    rw [J.marinade_kind]
    exact ⟨y, rfl, rfl, rfl, hz, by simpa using hup⟩
  | spl kd mt p f =>
    simp only [KnownCalc.usable, bind_ok, okOr_ok, pure_ok, SplCalc.verifyUpdated, require_ok, exists_const] at hus
    obtain ⟨y, rfl, hup, rfl⟩ := hus
    have hcf := hfig _ hx hd rfl
    refine ⟨ho.sound x hmem _ hcf, ?_⟩
    simp only [KnownCalc.lstMint, KnownCalc.programId] at am ap
    subst am
    obtain ⟨hp, -⟩ := hof
    obtain ⟨e', hfind', kd', p', hp', hread⟩ := hcf
    obtain rfl : e = e' := Option.some.inj (hfind.symm.trans hfind')
    rw [hp] at hp'; cases hp'
    obtain ⟨st, hst, hco, hde⟩ := ho.reviewed x hmem (J.spl kd) (SplKind.mem_poolCfgs J kd) ap.symm
    rw [← ap]
    refine serves_pool (SplKind.mem_poolCfgs J kd) ?_ hst hco hde
    unfold UsablePool
    rw [J.spl_kind]
    exact ⟨y, rfl, ho.spl x hmem e hel hem kd p hp, readSplPool_ok.1 hread, hup.trans hep⟩

/-- A refreshed cache is ready to quote for the deployed system. -/
theorem sys_ready {s : Sys (J.sys noFee dist)} {o : Outside (J.sys noFee dist)} {S : SPool} (ho : s.InOrder L list o) (hc : CacheInv J list S)
    (hr : ListRight J list o.chain s.world) (hfresh : Fresh J L (s.env L o) s.flatCalls S s.world)
    (hfull : Full J list o.chain (flatHistory L s.flatCalls) S s.world) (hpr : ∀ p, S.pool = .ok p → p.pricingProgram = J.fc.programId) :
    Ready J L (s.env L o) s.flatCalls S s.world := by
  obtain ⟨lsts, hl, hlen, hal⟩ := hc.aligned
  obtain rfl : s.world.ctl.lsts = lsts := by have := hfull.lsts; rw [hl] at this; cases this; rfl
  refine { hfresh with aligned := hc.aligned, tokenPrograms := ?_, serves := ?_, answers := ?_ }
  · intro i x d m hx hd hm
    obtain ⟨am, ap⟩ := hal i x d hx hd
    obtain ⟨e, hfind, htp, hof⟩ := hc.from_list d (List.mem_of_getElem? hd)
    have hem : e.mint = x.mint := by have := List.find?_some hfind; simpa [am] using this
    rw [htp]; exact (hr.program e (List.mem_of_find?_eq_some hfind) m (hem ▸ hm)).symm
  · exact sys_serves ho hc hfull.lsts hfull.epoch hfull.figures
  · intro p hp
    refine ⟨o.view, fun n w' ms q r F' hF => ?_⟩
    rw [hpr p hp]
    rw [← PriceReq.asIx_eq] at hF
    have : flatProcess L o.view (s.flat L) ms q.asIx = .ok (F', some r) := hF
    show s.answerPrice L o n w' J.fc.programId ms q = _
    unfold Sys.answerPrice
    rw [if_pos (show J.fc.programId = (J.sys noFee dist).fc.programId from rfl)]
    simp only [this]

theorem KnownCalc.ixAccounts_len (J : JupCfg) (c : KnownCalc) : (c.ixAccounts J).length ≤ 255 := by cases c <;> simp [KnownCalc.ixAccounts, poolMetas]

/-- Whatever a ready cache quotes, it can build the instruction for. -/
theorem swapIx_built {env : Env J.cfg} {cs : List (FlatCall J.fc)} {S : SPool} {w : World} (hr : Ready J L env cs S w) (hinv : Inv J.cfg w)
    (hlen : w.ctl.lsts.length ≤ 2 ^ 32) {q : QuoteParams} {Q : Quote} (hquote : S.quote L q = .ok Q) (a b : Nat) (src dst signer : Pubkey) :
    ∃ ix, S.swapIx J ⟨a, b, q.inputMint, q.outputMint, src, dst, signer⟩ q.exactOut = .ok ix := by
  obtain ⟨lsts, hl, -, hal⟩ := hr.aligned
  obtain rfl := hr.lsts lsts hl
  have look : ∀ {m : Pubkey} {s : LstState} {d : LstData}, S.findReady m = .ok (s, d) → ∃ i mt res acc, i < 2 ^ 32 ∧ findLst m w.ctl.lsts = .ok (i, s) ∧
      mt = d.tokenProgram ∧ J.cfg.ata J.cfg.poolState mt s.mint s.poolReservesBump = some res ∧
      J.cfg.ata J.cfg.protocolFee mt s.mint s.protocolFeeAccumulatorBump = some acc := by
    intro m s d hsd
    obtain ⟨lsts', i, hl', hi, hd, hm⟩ := SPool.findReady_ok hsd
    rw [hl] at hl'; cases hl'
    obtain ⟨mt, rk, ak, ra, fa, la⟩ := hinv.accs s (List.mem_of_getElem? hi)
    exact ⟨i, mt.program, rk, ak, Nat.lt_of_lt_of_le (List.getElem?_eq_some_iff.1 hi).1 hlen, found_now hinv.ctl.mints hi hm, (hr.tokenPrograms i s d mt hi hd la.mint).symm, la.res_key, la.acc_key⟩
  simp only [SPool.quote, bind_ok] at hquote
  obtain ⟨pool, hpool, hquote⟩ := hquote
  simp only [SPool.swapIx, hpool, bind, Except.bind]
  split at hquote
  · rename_i h1
    rw [if_pos h1]
    split at hquote
    · cases hquote
    rename_i h2
    rw [if_neg h2]
    simp only [SPool.quoteRemove, bind_ok, okOr_ok, require_ok, pure_ok, Prod.exists, exists_const, addU64_ok] at hquote
    obtain ⟨p', hp', pp, hpp, sup, hsup, so, d_o, hso, -⟩ := hquote
    obtain ⟨i, mt, res, acc, hi, hf, rfl, hres, hacc⟩ := look hso
    simp only [SPool.removeIx, SPool.liqRequest, removeLiquidityByMint, resolveLiq, bind_ok, Prod.exists, pure_ok, okOr_ok, Prod.mk.injEq, removeLiquidityIx, indexToU32_ok, extendOne_ok,
      poolReserves_ok, feeAccumulator_ok, if_true, hpool, hl, hpp]
    exact ⟨_, _, ⟨so, d_o, hso, pp, rfl, rfl⟩, pool, rfl, w.ctl.lsts, rfl, _, _, _, _, ⟨i, so, hf, res, hres, acc, hacc, rfl, rfl, rfl, rfl⟩, _, ⟨hi, rfl⟩, _, _,
      ⟨KnownCalc.ixAccounts_len J _, rfl, rfl⟩, _, _, ⟨by simp [flatRedeemAccounts], rfl, rfl⟩, rfl⟩
  · rename_i h1
    rw [if_neg h1]
    split at hquote
    · rename_i h2
      rw [if_pos h2]
      split at hquote
      · cases hquote
      rename_i h3
      rw [if_neg h3]
      simp only [SPool.quoteAdd, bind_ok, okOr_ok, require_ok, pure_ok, Prod.exists, exists_const] at hquote
      obtain ⟨p', hp', pp, hpp, sup, hsup, si, di, hsi, -⟩ := hquote
      obtain ⟨i, mt, res, acc, hi, hf, rfl, hres, hacc⟩ := look hsi
      simp only [SPool.addIx, SPool.liqRequest, addLiquidityByMint, resolveLiq, bind_ok, Prod.exists, pure_ok, okOr_ok, Prod.mk.injEq, addLiquidityIx, indexToU32_ok, extendOne_ok,
        poolReserves_ok, feeAccumulator_ok, if_false, Bool.false_eq_true, hpool, hl, hpp]
      exact ⟨_, _, ⟨si, di, hsi, pp, rfl, rfl⟩, pool, rfl, w.ctl.lsts, rfl, _, _, _, _, ⟨i, si, hf, res, hres, acc, hacc, rfl, rfl, rfl, rfl⟩, _, ⟨hi, rfl⟩, _, _,
        ⟨KnownCalc.ixAccounts_len J _, rfl, rfl⟩, _, _, ⟨by simp [flatMintAccounts], rfl, rfl⟩, rfl⟩
    · rename_i h2
      rw [if_neg h2]
      have key : ∃ pp si di so d_o x y, S.pricing = some pp ∧ S.findReady q.inputMint = .ok (si, di) ∧ S.findReady q.outputMint = .ok (so, d_o) ∧
          pp.fee q.inputMint = .ok x ∧ pp.fee q.outputMint = .ok y := by
        split at hquote
        · simp only [SPool.quoteExactOut, FlatProg.quoteExactOut, bind_ok, okOr_ok, require_ok, pure_ok, Prod.exists, exists_const, addU64_ok] at hquote
          obtain ⟨p', hp', pp, hpp, si, di, hsi, hien, t1, res1, happ, so, d_o, hso, t2, res, happ2, outS, houtS, houtne, inS, ⟨x, hx, y, hy, -⟩, -⟩ := hquote
          exact ⟨pp, si, di, so, d_o, x, y, hpp, hsi, hso, hx, hy⟩
        · simp only [SPool.quoteExactIn, FlatProg.quoteExactIn, bind_ok, okOr_ok, require_ok, pure_ok, Prod.exists, exists_const, addU64_ok] at hquote
          obtain ⟨p', hp', pp, hpp, si, di, hsi, hien, t1, res1, happ, so, d_o, hso, t2, res, happ2, inS, hinS, hinne, outS, ⟨x, hx, y, hy, -⟩, -⟩ := hquote
          exact ⟨pp, si, di, so, d_o, x, y, hpp, hsi, hso, hx, hy⟩
      obtain ⟨pp, si, di, so, d_o, x, y, hpp, hsi, hso, hx, hy⟩ := key
      obtain ⟨i, mt, res, acc, hi, hf, rfl, hres, hacc⟩ := look hsi
      obtain ⟨i', mt', res', acc', hi', hf', rfl, hres', hacc'⟩ := look hso
      have fx := (feesOf_addr (hr.fees pp _ x hpp hx)).1
      have fy := (feesOf_addr (hr.fees pp _ y hpp hy)).1
      obtain ⟨pm, hpm, hpl⟩ : ∃ pm, pp.swapAccounts J.fc q.inputMint q.outputMint = .ok pm ∧ pm.length = 4 := by
        simp only [FlatProg.swapAccounts, hx, hy, fx, fy, okOr, bind, Except.bind, pure, Except.pure]
        exact ⟨_, rfl, rfl⟩
      have hn := KnownCalc.ixAccounts_len J
      cases q.exactOut <;>
      · simp only [SPool.swapIx', SPool.swapRequest, swapExactInByMint, swapExactOutByMint, resolveSwap, swapExactInIx, swapExactOutIx, bind_ok, Prod.exists, if_true, if_false, Bool.false_eq_true,
          pure_ok, okOr_ok, Prod.mk.injEq, indexToU32_ok, extendSrcDst_ok, extendSwap_ok, poolReserves_ok, feeAccumulator_ok, hpool, hl, hpp]
        exact ⟨_, pool, rfl, _, ⟨si, di, hsi, so, d_o, hso, pp, rfl, pm, hpm, rfl⟩, w.ctl.lsts, rfl, _, _,
          ⟨i, si, hf, res, hres, i', so, hf', res', hres', acc', hacc', rfl, rfl⟩, _, ⟨hi, rfl⟩, _, ⟨hi', rfl⟩, _, _, _,
          ⟨hn _, hn _, rfl, rfl, rfl⟩, _, _, ⟨by simp only; omega, by simp only; omega, rfl, rfl⟩, rfl⟩

/-- The refreshed cache is ready (C54) if it prices. -/
theorem refreshed_ready (hg : GoodList J list) {S₀ : SPool} (hi : JupInit J list S₀) {ops : List JupOp} (hfed : FedFromChain J L list ops) {S : SPool}
    (hS : S₀.after J ops = S) {s₀ : Sys (J.sys noFee dist)} (hf : s₀.Fresh) {h : List (SysTx (J.sys noFee dist))} {s : Sys (J.sys noFee dist)}
    (hs : runSystem L s₀ h = s)
    (hst : (s.flat L).state ≠ none) (hclosed : NoneClosed J (s.flat L) S)
    {o : Outside (J.sys noFee dist)} (ho : s.InOrder L list o) (hep : S.epoch = o.chain.epoch) (hr : ListRight J list o.chain s.world)
    {m₁ m₂ : AccMap} {S₁ S₂ : SPool} (h₁ : Answers J list o.chain (s.flat L) s.world (S.toFetch J) m₁) (hS₁ : (S.updateFull J m₁).1 = S₁)
    (h₂ : Answers J list o.chain (s.flat L) s.world (S₁.toFetch J) m₂) (hS₂ : S₁.updateFull J m₂ = (S₂, .ok ()))
    (hp : s.world.ctl.pool ≠ none) (hpp : S₂.pricing ≠ none) :
    Ready J L (s.env L o) s.flatCalls S₂ s.world ∧ Full J list o.chain (flatHistory L s.flatCalls) S₂ s.world ∧
      S₀.after J (ops ++ [.full m₁, .full m₂]) = S₂ ∧ S₂.PricingOk J := by
  obtain ⟨g1, -⟩ := ctlHistory_run (L := L) s₀ h
  rw [hs] at g1
  obtain ⟨hfresh, hfull⟩ := C53_refresh hg hi hfed hS (w₀ := s₀.world) hf.world g1 hp hst hclosed hep hr (sys_calcsServed s o) (s.flatPriced o) h₁ hS₁ h₂ hS₂
  have c2 : CacheInv J list S₂ := by
    have c0 : CacheInv J list S := hS ▸ SPool.after_inv ops (hi.inv hg)
    have c1 : CacheInv J list S₁ := by rw [← hS₁]; exact JupOp.run_inv (.full m₁) c0
    have := JupOp.run_inv (.full m₂) c1
    simpa only [JupOp.run, hS₂] using this
  have hafter : S₀.after J (ops ++ [.full m₁, .full m₂]) = S₂ := by
    simp only [SPool.after, List.foldl_append, List.foldl_cons, List.foldl_nil] at hS ⊢
    rw [hS]
    simp only [JupOp.run, hS₁, hS₂]
  have hpk : S₂.PricingOk J := hafter ▸ C49_pricing hi (ops ++ [.full m₁, .full m₂])
  refine ⟨?_, hfull, hafter, hpk⟩
  refine sys_ready ho c2 hr hfresh hfull fun p' hp' => ?_
  obtain ⟨pp, hpp⟩ := Option.ne_none_iff_exists'.1 hpp
  obtain ⟨p'', h1, h2⟩ := hpk.named pp hpp
  rw [hp'] at h1; cases h1; exact h2

/-- Nothing is quoted without a pricing program. -/
theorem quote_priced {S : SPool} {q : QuoteParams} {Q : Quote} (hq : S.quote L q = .ok Q) : S.pricing ≠ none := by
  suffices ∃ pp, S.pricing = some pp by obtain ⟨pp, h⟩ := this; rw [h]; simp
  simp only [SPool.quote, bind_ok] at hq
  obtain ⟨pool, -, hq⟩ := hq
  split at hq
  · split at hq
    · cases hq
    simp only [SPool.quoteRemove, bind_ok, okOr_ok] at hq
    obtain ⟨_, _, pp, hpp, -⟩ := hq
    exact ⟨pp, hpp⟩
  · split at hq
    · split at hq
      · cases hq
      simp only [SPool.quoteAdd, bind_ok, okOr_ok] at hq
      obtain ⟨_, _, pp, hpp, -⟩ := hq
      exact ⟨pp, hpp⟩
    · split at hq
      · simp only [SPool.quoteExactOut, bind_ok, okOr_ok] at hq
        obtain ⟨_, _, pp, hpp, -⟩ := hq
        exact ⟨pp, hpp⟩
      · simp only [SPool.quoteExactIn, bind_ok, okOr_ok] at hq
        obtain ⟨_, _, pp, hpp, -⟩ := hq
        exact ⟨pp, hpp⟩

/-- C89. Refresh, quote, execute. After any history of the deployed system, with the stake pools and calculators of the listed LSTs in working order and the pool
neither disabled nor rebalancing: let a cache of the Jupiter library, however it was made and fed, be refreshed twice (C53), and quote a trade. Then the
library builds the instruction for it, with the quoted amounts as limits, and the transaction with it goes through, for a user who has the tokens, provided there is room
for the trade: the user pays exactly the quoted input and receives exactly the quoted output. -/
theorem C89_refresh_quote_execute (hg : GoodList J list) {S₀ : SPool} (hi : JupInit J list S₀) {ops : List JupOp} (hfed : FedFromChain J L list ops) {S : SPool}
    (hS : S₀.after J ops = S) {s₀ : Sys (J.sys noFee dist)} (hf : s₀.Fresh) {h : List (SysTx (J.sys noFee dist))} {s : Sys (J.sys noFee dist)}
    (hs : runSystem L s₀ h = s) (hb : s.world.led.Backed) (hact : Active s.world) (hlen : s.world.ctl.lsts.length ≤ 2 ^ 32)
    (hst : (s.flat L).state ≠ none) (hclosed : NoneClosed J (s.flat L) S)
    {o : Outside (J.sys noFee dist)} (hquiet : o.other.Quiet) (ho : s.InOrder L list o) (hep : S.epoch = o.chain.epoch) (hr : ListRight J list o.chain s.world)
    {m₁ m₂ : AccMap} {S₁ S₂ : SPool} (h₁ : Answers J list o.chain (s.flat L) s.world (S.toFetch J) m₁) (hS₁ : (S.updateFull J m₁).1 = S₁)
    (h₂ : Answers J list o.chain (s.flat L) s.world (S₁.toFetch J) m₂) (hS₂ : S₁.updateFull J m₂ = (S₂, .ok ()))
    {q : QuoteParams} {Q : Quote} (hquote : S₂.quote L q = .ok Q) (hamt : 0 < q.amount) (hu64 : q.amount < U64) (hne : q.inputMint ≠ q.outputMint)
    {p : PoolState} (hp : s.world.ctl.pool = some p) (hroom : S₂.Room L p.lpTokenMint q Q)
    {src dst signer : Pubkey} {a b : TokenAcc} (ha : Wallet J.cfg s.world.led src q.inputMint a) (hd : Wallet J.cfg s.world.led dst q.outputMint b)
    (hown : a.owner = signer) (hen : Q.inAmount ≤ a.amount) :
    ∃ ix, S₂.swapIx J ⟨Q.inAmount, Q.outAmount, q.inputMint, q.outputMint, src, dst, signer⟩ q.exactOut = .ok ix ∧
      ∀ accs, SeenAs ix.accs accs → (∀ x ∈ accs, x.signer = true → x.key = signer) →
        ∃ s', SysTx.run L s [.controller o accs ix.data] = .ok s' ∧
          bal s'.world.led src + Q.inAmount = bal s.world.led src ∧ bal s'.world.led dst = bal s.world.led dst + Q.outAmount := by
  have hreach : Reachable J.cfg L s.world := hs ▸ C65_reachable hf h
  have hinv := hreach.inv
  obtain ⟨hready, hfull, hafter, hpk⟩ := refreshed_ready hg hi hfed hS hf hs hst hclosed ho hep hr h₁ hS₁ h₂ hS₂ (by rw [hp]; simp) (quote_priced hquote)
  have hfresh := hready.toFresh
  obtain ⟨pool, hpool, hpw⟩ := hfull.pool
  obtain rfl : p = pool := Option.some.inj (hp.symm.trans hpw)
  obtain ⟨ix, hix⟩ := swapIx_built hready hinv hlen hquote Q.inAmount Q.outAmount src dst signer
  refine ⟨ix, hix, fun accs hseen hsig => ?_⟩
  have hprog : ix.program = J.cfg.programId := by
    have := (C50_metas hi (ops ++ [.full m₁, .full m₂]) _ _ ix).1 (by rw [hafter]; exact hix)
    obtain ⟨sw, as, _, _, rfl⟩ := this
    rfl
  have hqt : (s.env L o).Quiet := s.quiet hquiet
  have done : ∀ {w' : World}, processInstruction J.cfg L (s.env L o) ⟨[⟨J.cfg.programId, accs, ix.data⟩], 0⟩ s.world ix.program accs ix.data = .ok w' →
      (bal w'.led src + Q.inAmount = bal s.world.led src ∧ bal w'.led dst = bal s.world.led dst + Q.outAmount) →
      ∃ s', SysTx.run L s [.controller o accs ix.data] = .ok s' ∧
          bal s'.world.led src + Q.inAmount = bal s.world.led src ∧ bal s'.world.led dst = bal s.world.led dst + Q.outAmount := by
    intro w' hw hbal
    rw [hprog] at hw
    exact ⟨_, SysTx.run_single (s := s) (o := o) (fun x hx hsg => by rw [hsig x hx hsg, ← hown]; exact ⟨ha.notPool, ha.notFees⟩) hw, hbal⟩
  have hq := hquote
  simp only [SPool.quote, hpool, bind, Except.bind] at hq
  unfold SPool.Room at hroom
  by_cases h1 : q.inputMint = p.lpTokenMint
  · rw [if_pos h1] at hroom hq
    split at hq
    · cases hq
    have hin : Q.inAmount = q.amount := by
      have := hq
      simp only [SPool.quoteRemove, bind_ok, okOr_ok, require_ok, pure_ok, Prod.exists, exists_const, addU64_ok] at this
      obtain ⟨p', hp', pp, hpp, sup, hsup, so, d_o, hso, t1, res, happ, v, hv, after, hafter, hle, out, hout', fee, hfee, tot, ⟨rfl, hfit⟩, hen', fa', fp', fq', hqf, rfl⟩ := this
      rfl
    have hix' := swapIx_remove hpool hix h1
    obtain ⟨w', hw'⟩ := C54_removeLiquidity hready hreach hb hact hpool h1 (fun e => hne (h1.trans e.symm)) hquote hroom hamt hix hd (h1 ▸ ha) hown (hin ▸ hen) hseen _
    exact done hw' (remove_effect hfresh hinv hqt hq hu64 (hin ▸ hix') hne hd ha hseen hw')
  · rw [if_neg h1] at hroom hq
    by_cases h2 : q.outputMint = p.lpTokenMint
    · rw [if_pos h2] at hroom hq
      split at hq
      · cases hq
      have hin : Q.inAmount = q.amount := by
        have := hq
        simp only [SPool.quoteAdd, bind_ok, okOr_ok, require_ok, pure_ok, Prod.exists, exists_const] at this
        obtain ⟨p', hp', pp, hpp, sup, hsup, si, di, hsi, -, t1, res', hsync, vv, hvv, -, lp', hlp', _, _, _, _, rfl⟩ := this
        rfl
      have hix' := swapIx_add hpool hix h1 h2
      obtain ⟨w', hw'⟩ := C54_addLiquidity hready hreach hb hact hpool h1 h2 hquote hroom.1 hamt hroom.2.1 hroom.2.2 hix ha (h2 ▸ hd) hown (hin ▸ hen) hseen _
      exact done hw' (add_effect hfresh hinv hqt hq hu64 (hin ▸ hix') hne ha hd hseen hw')
    · rw [if_neg h2] at hroom hq
      have hix' := swapIx_swap hpool hix h1 h2
      cases hm : q.exactOut with
      | true =>
        rw [hm] at hq hix'
        simp only [if_true] at hq
        have hout : Q.outAmount = q.amount := by
          have := hq
          simp only [SPool.quoteExactOut, bind_ok, okOr_ok, require_ok, pure_ok, Prod.exists, exists_const, addU64_ok] at this
          obtain ⟨p', hp', pp, hpp, si, di, hsi, hien, t1, res1, happ, so, d_o, hso, t2, res, happ2, outS, houtS, houtne, inS, hinS, hle, rI, hrI, hine,
            fee, hfee, tot, ⟨rfl, htot⟩, hen', fa', fp', fq', hqf, rfl⟩ := this
          rfl
        obtain ⟨w', hw'⟩ := C54_swapExactOut hready hreach hb hact hpool hm h1 h2 hne hquote hamt hroom.1 hroom.2 hix ha hd hown hen hseen _
        exact done hw' (swapOut_effect hfresh hinv hqt hq hu64 (hout ▸ hix') hne ha hd hseen hw')
      | false =>
        rw [hm] at hq hix'
        simp only [if_false, Bool.false_eq_true] at hq
        have hin : Q.inAmount = q.amount := by
          have := hq
          simp only [SPool.quoteExactIn, bind_ok, okOr_ok, require_ok, pure_ok, Prod.exists, exists_const, addU64_ok] at this
          obtain ⟨p', hp', pp, hpp, si, di, hsi, hien, t1, res1, happ, so, d_o, hso, t2, res, happ2, inS, hinS, hinne, outS, houtS, hle, rO, hrO, hone,
            fee, hfee, tot, ⟨rfl, htot⟩, hen', fa', fp', fq', hqf, rfl⟩ := this
          rfl
        obtain ⟨w', hw'⟩ := C54_swapExactIn hready hreach hb hact hpool hm h1 h2 hne hquote hamt hroom.1 hroom.2 hix ha hd hown hen hseen _
        exact done hw' (swapIn_effect hfresh hinv hqt hq hu64 (hin ▸ hix') hne ha hd hseen hw')

end

/-! ### A concrete case -/

namespace Ex

theorem jdist : (rjup.cfg.programId :: rjup.fc.programId :: (800 : Pubkey) :: rjup.wsolProgram :: rjup.poolCfgs.map PoolCfg.programId).Nodup := by decide

/-- The programs of the example's cache, deployed together. -/
abbrev jsys : SysCfg := rjup.sys 800 jdist

def jout : Outside jsys := ⟨rch, rview, Env.pure cfg calcF priceF⟩

def jflat (c : FlatCall rfc) : SysTx jsys := [.foreign ⟨7, c.accs, c.data⟩ (by show (7 : Nat) ≠ 13; decide) [.flat c]]

def jlido (accs : List Acc) (ix : CalcIx) : SysTx jsys :=
  [.foreign ⟨32, accs, ix.encode⟩ (by show (32 : Nat) ≠ 13; decide) [.calc jup.lido (by simp [jsys, JupCfg.sys, JupCfg.poolCfgs, rjup]) ⟨onchain 0 17, accs, ix.encode⟩]]

def jcall (accs : List Acc) (ix : Ix) : SysTx jsys := [.controller jout accs ix.encode]

def jSwap : List Acc := swapAB.take 12 ++ [ro 31] ++ lidoAccs ++ [ro 7, ro 1000021, ro 1000022]

/-- The programs are set up, the LSTs listed, deposited and traded. -/
def jhist : List (SysTx jsys) :=
  rhist.map jflat ++
  [jlido [sg 40, rw 701, ro 11] .init,
   jlido [sg 602, rw 701, ro 702, ro 703] .updateLastUpgradeSlot,
   jcall [sg 6, sg 6, rw 1, rw 20, ro 8, ro 11] .initialize,
   jcall [sg 6, sg 6, ro 21, rw resA, rw feeA, rw 5, ro 31, ro 1, rw 2, ro 10, ro 11, ro 8] .addLst,
   jcall [sg 6, sg 6, ro 22, rw resB, rw feeB, rw 5, ro 32, ro 1, rw 2, ro 10, ro 11, ro 8] .addLst,
   jcall liqA (.addLiquidity ⟨1, 0, 30000, 1⟩),
   jcall sysLiqB (.addLiquidity ⟨5, 1, 20000, 1⟩),
   jcall jSwap (.swapExactIn ⟨1, 5, 0, 1, 10, 3000⟩)]

def jsys0 : Sys jsys := ⟨w0, [], fun _ => []⟩

theorem jsys0_fresh : jsys0.Fresh := ⟨w0_fresh, rfl, fun _ => rfl⟩

def jat (n : Nat) : Sys jsys := runSystem .ex jsys0 (jhist.take n)

theorem jnoext {t : SysTx jsys} (ht : t ∈ jhist) {x : SysStep jsys} (hx : x ∈ t) {f : Ledger → Ledger} {ok : ∀ l : Ledger, l.ExtOk jsys.cfg (f l)} :
    .ext f ok ∉ x.actions := by
  intro ha
  simp only [jhist, List.mem_append, List.mem_map, List.mem_cons, List.not_mem_nil, or_false] at ht
  rcases ht with ⟨c, _, rfl⟩ | ht
  · simp only [jflat, List.mem_cons, List.not_mem_nil, or_false] at hx
    subst hx; simp [SysStep.actions] at ha
  · rcases ht with rfl | rfl | rfl | rfl | rfl | rfl | rfl | rfl <;>
      simp only [jcall, jlido, List.mem_cons, List.not_mem_nil, or_false] at hx <;> subst hx <;>
      simp [SysStep.actions] at ha

theorem joutside {t : SysTx jsys} (ht : t ∈ jhist) {x : SysStep jsys} (hx : x ∈ t) {o : Outside jsys} {accs : List Acc} {data : List UInt8}
    (ha : .controller o accs data ∈ x.actions) : o = jout := by
  simp only [jhist, List.mem_append, List.mem_map, List.mem_cons, List.not_mem_nil, or_false] at ht
  rcases ht with ⟨c, _, rfl⟩ | ht
  · simp only [jflat, List.mem_cons, List.not_mem_nil, or_false] at hx
    subst hx; simp [SysStep.actions] at ha
  · rcases ht with rfl | rfl | rfl | rfl | rfl | rfl | rfl | rfl <;>
      simp only [jcall, jlido, List.mem_cons, List.not_mem_nil, or_false] at hx <;> subst hx <;>
      simp only [SysStep.actions, List.mem_cons, List.not_mem_nil, or_false, reduceCtorEq, SysAction.controller.injEq] at ha <;>
      exact ha.1

theorem jat_backed (n : Nat) : (jat n).world.led.Backed := by
  refine system_backed (L := .ex) (s₀ := jsys0) (h := jhist.take n) w0_backed ?_ ?_
  · intro e he f ok ha
    obtain ⟨t, h1, x, h2, h3⟩ := systemEvents_act he
    rw [ha] at h3
    exact absurd h3 (jnoext (List.mem_of_mem_take h1) h2)
  · intro e he o accs data ha
    obtain ⟨t, h1, x, h2, h3⟩ := systemEvents_act he
    rw [ha] at h3
    rw [joutside (List.mem_of_mem_take h1) h2 h3]
    exact Env.pure_quiet

theorem jat_range (n : Nat) (h : (historyEvents .ex w0 (ctlHistory .ex jsys0 (jhist.take n))).all (fun e => actKeys e.act) = true) : (jat n).world.ctl.InRange := by
  have := C29_in_range (L := .ex) w0_fresh ⟨by decide +kernel, by decide +kernel⟩ (historyKeys_of h)
  exact congrArg World.ctl (ctlHistory_run (L := .ex) jsys0 (jhist.take n)).1 ▸ this

theorem jrange11 : (jat 11).world.ctl.InRange := jat_range 11 (by decide +kernel)
theorem jrange12 : (jat 12).world.ctl.InRange := jat_range 12 (by decide +kernel)

/-- The cache was made from the LST list, and updated once from the state before the last transaction. -/
def j0 : SPool := (SPool.fromKeyed rjup jupList 0 2 ⟨8, (bytes (jat 12).world.ctl).lsts⟩).toOption.getD ⟨⟨0, []⟩, none, none, none, [], 0⟩
def jops : List JupOp := [.full (rfetch (jat 11).world (j0.toFetch rjup)), .epoch 0]
def jS : SPool := j0.after rjup jops
def jS1 : SPool := (jS.updateFull rjup (rfetch (jat 12).world (jS.toFetch rjup))).1
def jS2 : SPool × R Unit := jS1.updateFull rjup (rfetch (jat 12).world (jS1.toFetch rjup))

theorem jstate : ((jat 12).flat .ex).state = some ⟨301, 25⟩ := by decide +kernel
theorem jfees : ((jat 12).flat .ex).fees 1000021 = some ⟨254, 30, 20⟩ ∧ ((jat 12).flat .ex).fees 1000022 = some ⟨254, 40, -10⟩ := by decide +kernel
theorem jcalc : (jat 12).calc .ex jup.lido = some ⟨602, 17⟩ := by decide +kernel
theorem jpool : (jat 12).world.ctl.pool.map (fun p => (p.totalSolValue, p.isDisabled, p.isRebalancing, p.lpTokenMint)) = some (60006, 0, 0, 20) := by decide +kernel
theorem jlsts : (jat 12).world.ctl.lsts.map (fun s => (s.mint, s.solValue, s.solValueCalculator)) = [(21, 33000, 31), (22, 27006, 32)] := by decide +kernel
theorem jmints : (jat 12).world.led.mints 20 = some ⟨8, 60000, 9, some 1, some 1⟩ ∧ (jat 12).world.led.mints 21 = some ⟨8, 1000000, 9, none, none⟩ ∧
    (jat 12).world.led.mints 22 = some ⟨8, 1000000, 9, none, none⟩ := by decide +kernel
theorem jtoks : (jat 12).world.led.tok 41 = some ⟨8, 21, 40, 967000⟩ ∧ (jat 12).world.led.tok 42 = some ⟨8, 22, 40, 981996⟩ ∧
    (jat 12).world.led.tok 43 = some ⟨8, 20, 40, 60000⟩ := by decide +kernel

theorem jlist_right : ListRight rjup jupList rch (jat 12).world where
  program e he m hm := by
    have h : jupList.all (fun e => match (jat 12).world.led.mints e.mint with | some m => decide (m.program = e.tokenProgram) | none => true) = true := by
      decide +kernel
    have := List.all_eq_true.1 h e he
    simp only [hm] at this
    exact of_decide_eq_true this
  pool := rlist_right.pool

theorem jfed : FedFromChain rjup .ex jupList jops := by
  intro o ho m hm
  simp only [jops, List.mem_cons, List.not_mem_nil, or_false] at ho
  rcases ho with rfl | rfl
  · injection hm with hm; subst hm
    exact ⟨rch, rhist, (jat 11).world, rshows jrange11 (by decide +kernel) _⟩
  · cases hm

theorem jinit : JupInit rjup jupList j0 := .keyed (e := 0) (k := 2) (b := ⟨8, (bytes (jat 12).world.ctl).lsts⟩) (by decide +kernel)

theorem jclosed : NoneClosed rjup ((jat 12).flat .ex) jS := by
  have h : (jS.pricing.all fun pp => pp.fees.all fun e => (((jat 12).flat .ex).feesOf rfc e.1).isSome) = true := by decide +kernel
  intro pp mint f hp hf hn
  rw [hp] at h
  have := List.all_eq_true.1 h _ hf
  have hn : ((jat 12).flat .ex).feesOf rfc mint = none := hn
  simp only [hn] at this
  cases this

theorem janswer1 : Answers rjup jupList rch ((jat 12).flat .ex) (jat 12).world (jS.toFetch rjup) (rfetch (jat 12).world (jS.toFetch rjup)) :=
  ranswersF jstate jfees jrange12 (by decide +kernel) (by decide +kernel)

theorem janswer2 : Answers rjup jupList rch ((jat 12).flat .ex) (jat 12).world (jS1.toFetch rjup) (rfetch (jat 12).world (jS1.toFetch rjup)) :=
  ranswersF jstate jfees jrange12 (by decide +kernel) (by decide +kernel)

theorem jS_eq : j0.after rjup jops = jS := by rw [jS]
theorem jS1_eq : (jS.updateFull rjup (rfetch (jat 12).world (jS.toFetch rjup))).1 = jS1 := by rw [jS1]
theorem jS2_eq : jS1.updateFull rjup (rfetch (jat 12).world (jS1.toFetch rjup)) = (jS2.1, .ok ()) := by
  have h : jS2.2 = .ok () := toOption_ok (by decide +kernel)
  rw [← h, jS2]

theorem jactive : Active (jat 12).world := by
  obtain ⟨p, hp, e⟩ := of_map jpool
  simp only [Prod.mk.injEq] at e
  exact ⟨p, hp, e.2.1, e.2.2.1⟩

theorem jtwo : ∀ x ∈ (jat 12).world.ctl.lsts, (x.mint = 21 ∧ x.solValueCalculator = 31) ∨ (x.mint = 22 ∧ x.solValueCalculator = 32) := by
  obtain ⟨a, b, hls, ha, hb⟩ := two_of jlsts
  simp only [Prod.mk.injEq] at ha hb
  rw [hls]
  intro x hx
  simp only [List.mem_cons, List.not_mem_nil, or_false] at hx
  rcases hx with rfl | rfl
  · exact .inl ⟨ha.1, ha.2.2⟩
  · exact .inr ⟨hb.1, hb.2.2⟩

theorem jreviewed {pc : PoolCfg} (hpc : pc ∈ rjup.poolCfgs) (h : (31 : Pubkey) = pc.programId ∨ (32 : Pubkey) = pc.programId) :
    ∃ st, (jat 12).calc .ex pc = some st ∧ PoolCode pc rch pc.poolProgData ∧ DeployedAt rch pc.poolProgData st.lastUpgradeSlot := by
  have hmem : pc = rjup.lido ∨ (31 ≠ pc.programId ∧ 32 ≠ pc.programId) := by
    simp only [JupCfg.poolCfgs, List.mem_cons, List.not_mem_nil, or_false] at hpc
    rcases hpc with rfl | rfl | rfl | rfl | rfl
    · exact .inl rfl
    all_goals exact .inr (by decide)
  rcases hmem with rfl | ⟨h1, h2⟩
  · exact ⟨_, jcalc, rfl, readProgdataMeta_ok.1 ⟨none, ok_of (by decide +kernel)⟩⟩
  · rcases h with h | h
    · exact absurd h h1
    · exact absurd h h2

theorem jsound {mint : Pubkey} (hm : mint = 21 ∨ mint = 22) {c : AnyCalc} (hc : ChainFigures rjup jupList rch mint c) : c.Usable := by
  cases c with
  | wsol => trivial
  | lido x =>
    have e : readLidoUnchecked (lidoBytes 0) = .ok x := hc.2
    rw [readLido_unchecked (ok_of lido_read)] at e; cases e
    exact ⟨by decide, by decide⟩
  | marinade x => rcases hm with rfl | rfl <;> exact absurd hc.1 (by decide)
  | spl x =>
    obtain ⟨e, h1, k, p, h2, -⟩ := hc
    rcases hm with rfl | rfl
    · obtain rfl : (⟨21, 8, .reservePool⟩ : SanctumLst) = e := Option.some.inj h1
      cases h2
    · obtain rfl : (⟨22, 8, .lido⟩ : SanctumLst) = e := Option.some.inj h1
      cases h2

theorem jspl {e : SanctumLst} (he : e ∈ jupList) {kind : SplKind} {p : Pubkey} (hp : e.pool = .spl kind p) : rch.owner p = (rjup.spl kind).poolProgram := by
  simp only [jupList, List.mem_cons, List.not_mem_nil, or_false] at he
  rcases he with rfl | rfl | rfl
  · cases hp
  · cases hp
  · injection hp with hk hp; subst hk hp; rfl

theorem jnot_msol (x : LstState) (hx : x ∈ (jat 12).world.ctl.lsts) : x.mint ≠ rjup.msolMint := by
  intro e
  rcases jtwo x hx with ⟨h', -⟩ | ⟨h', -⟩ <;> exact absurd (h'.symm.trans e) (by decide)

theorem jfind21 : (jS2.1.findReady 21).toOption.map (fun x => (x.1.solValue, x.2)) = some (33000, ⟨.wsol, some 33000, 8⟩) := by decide +kernel
theorem jfind22 : (jS2.1.findReady 22).toOption.map (fun x => (x.1.solValue, x.2)) = some (27006, ⟨.lido (some ⟨0, 2, 3⟩), some 18004, 8⟩) := by decide +kernel
theorem jtotal : jS2.1.pool.toOption.map (fun p => (p.totalSolValue, p.lpTokenMint)) = some (60006, 20) := by decide +kernel
theorem jS2_epoch : jS2.1.epoch = 0 := by decide +kernel

theorem jrun : runSystem .ex jsys0 (jhist.take 12) = jat 12 := rfl

attribute [local irreducible] jat jS jS1 jS2 jops j0

theorem jorder : (jat 12).InOrder .ex jupList jout :=
  ⟨fun x hx _ hpc h => jreviewed hpc ((jtwo x hx).imp (fun e => e.2.symm.trans h) (fun e => e.2.symm.trans h)),
   fun _ _ _ => ⟨⟨0, 2, 3⟩, readLido_ok.1 (ok_of lido_read)⟩,
   fun x hx h => absurd h (jnot_msol x hx),
   fun _ _ _ he _ _ _ hp => jspl he hp,
   fun x hx _ hc => jsound ((jtwo x hx).imp And.left And.left) hc⟩

theorem jstate_some : ((jat 12).flat .ex).state ≠ none := by rw [jstate]; simp
theorem jlen : (jat 12).world.ctl.lsts.length ≤ 2 ^ 32 := by decide +kernel
theorem jepoch : jS.epoch = rch.epoch := by decide +kernel

theorem jquote1 : jS2.1.quote .ex ⟨3000, 20, 22, false⟩ = .ok ⟨3000, 1994, 22, 5, (8, 3000)⟩ := toOption_ok (by decide +kernel)
theorem jquote2 : jS2.1.quote .ex ⟨3000, 21, 22, false⟩ = .ok ⟨3000, 1996, 22, 4, (6, 3000)⟩ := toOption_ok (by decide +kernel)

/-- 3000 LP tokens redeemed for 1994 of LST 22. -/
theorem jredeem : ∃ ix, jS2.1.swapIx rjup ⟨3000, 1994, 20, 22, 43, 42, 40⟩ false = .ok ix ∧
    ∀ accs, SeenAs ix.accs accs → (∀ x ∈ accs, x.signer = true → x.key = (40 : Pubkey)) → ∃ s', SysTx.run .ex (jat 12) [.controller jout accs ix.data] = .ok s' ∧
      bal s'.world.led 43 + 3000 = bal (jat 12).world.led 43 ∧ bal s'.world.led 42 = bal (jat 12).world.led 42 + 1994 := by
  obtain ⟨p, hp, e⟩ := of_map jpool
  simp only [Prod.mk.injEq] at e
  have hlp := e.2.2.2
  have hroom : jS2.1.Room .ex p.lpTokenMint ⟨3000, 20, 22, false⟩ ⟨3000, 1994, 22, 5, (8, 3000)⟩ := by
    unfold SPool.Room
    rw [if_pos hlp.symm]; decide
  exact C89_refresh_quote_execute (J := rjup) (noFee := 800) (dist := jdist) (s := jat 12) jupList_good jinit jfed jS_eq jsys0_fresh (h := jhist.take 12) jrun (jat_backed 12) jactive
    jlen jstate_some jclosed (o := jout) Env.pure_quiet jorder jepoch jlist_right janswer1 jS1_eq janswer2 jS2_eq jquote1
    (by decide) (by decide) (by decide) hp hroom (wallet jtoks.2.2 jmints.1 rfl rfl rfl) (wallet jtoks.2.1 jmints.2.2 rfl rfl rfl) rfl (by decide)

theorem jtotal_inv {p : PoolState} (h : jS2.1.pool = .ok p) : p.totalSolValue = 60006 ∧ p.lpTokenMint = 20 := by
  have := jtotal
  rw [h] at this; injection this with h; injection h with h1 h2; exact ⟨h1, h2⟩

theorem jfits : jS2.1.SwapFits .ex 21 22 3000 := by
  intro p s d n s' d' n' hp hs hs' hn hn'
  obtain ⟨hv, rfl⟩ := find_inv jfind21 hs
  obtain ⟨hv', rfl⟩ := find_inv jfind22 hs'
  injection hn with hn; injection hn' with hn'; subst hn hn'
  rw [jS2_epoch, hv, hv', (jtotal_inv hp).1]
  exact ⟨⟨36000, 36000⟩, ⟨27006, 27006⟩, ok_of (by decide +kernel), ok_of (by decide +kernel), by decide⟩

/-- 3000 of LST 21 swapped for 1996 of LST 22. -/
theorem jswap : ∃ ix, jS2.1.swapIx rjup ⟨3000, 1996, 21, 22, 41, 42, 40⟩ false = .ok ix ∧
    ∀ accs, SeenAs ix.accs accs → (∀ x ∈ accs, x.signer = true → x.key = (40 : Pubkey)) → ∃ s', SysTx.run .ex (jat 12) [.controller jout accs ix.data] = .ok s' ∧
      bal s'.world.led 41 + 3000 = bal (jat 12).world.led 41 ∧ bal s'.world.led 42 = bal (jat 12).world.led 42 + 1996 := by
  obtain ⟨p, hp, e⟩ := of_map jpool
  simp only [Prod.mk.injEq] at e
  have hlp := e.2.2.2
  have hi : p.lpTokenMint ≠ 21 := by rw [hlp]; decide
  have ho : p.lpTokenMint ≠ 22 := by rw [hlp]; decide
  have hready := refreshed_ready (J := rjup) (noFee := 800) (dist := jdist) (s := jat 12) jupList_good jinit jfed jS_eq jsys0_fresh (h := jhist.take 12) jrun
    jstate_some jclosed (o := jout) jorder jepoch jlist_right janswer1 jS1_eq janswer2 jS2_eq (by rw [hp]; simp) (quote_priced jquote2)
  obtain ⟨pool, hpool, hpw⟩ := hready.2.1.pool
  obtain rfl : p = pool := Option.some.inj (hp.symm.trans hpw)
  have hroom : jS2.1.Room .ex p.lpTokenMint ⟨3000, 21, 22, false⟩ ⟨3000, 1996, 22, 4, (6, 3000)⟩ := by
    unfold SPool.Room
    rw [if_neg hi.symm, if_neg ho.symm]
    refine ⟨jfits, C54_exactIn_keeps hready.1 (jrun ▸ C65_reachable jsys0_fresh _) rfl hpool hi.symm ho.symm jquote2 ?_⟩
    rintro m s d (rfl | rfl) hm c hc
    · obtain ⟨-, rfl⟩ := find_inv jfind21 hm
      injection hc with hc; subst hc; trivial
    · obtain ⟨-, rfl⟩ := find_inv jfind22 hm
      rw [jS2_epoch] at hc
      injection hc with hc; subst hc; trivial
  exact C89_refresh_quote_execute (J := rjup) (noFee := 800) (dist := jdist) (s := jat 12) jupList_good jinit jfed jS_eq jsys0_fresh (h := jhist.take 12) jrun (jat_backed 12) jactive
    jlen jstate_some jclosed (o := jout) Env.pure_quiet jorder jepoch jlist_right janswer1 jS1_eq janswer2 jS2_eq jquote2
    (by decide) (by decide) (by decide) hp hroom (wallet jtoks.1 jmints.2.1 rfl rfl rfl) (wallet jtoks.2.1 jmints.2.2 rfl rfl rfl) rfl (by decide)

end Ex
end S
