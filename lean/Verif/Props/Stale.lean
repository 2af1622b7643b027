import Verif.Props.Lookup
import Verif.Props.Invariants
import Verif.AdminCli
import Verif.Proofs.UserRuns
import Verif.Proofs.AdminRuns
/-
C85: instructions built from an outdated view of the chain.

Clients read the pool state and the lists, build an instruction that names LSTs by their position in the list, and send it later. By
then the lists may have changed: entries may have moved, been removed or have another calculator. Whatever the client had read, an
instruction the program accepts is the one the client would have built from the chain's present state: it cannot act on another LST
than the one asked for. (C43 and C60 say what the instruction built from the present state does.)
-/
set_option autoImplicit false
namespace S

theorem found_now {lsts : List LstState} {m : Pubkey} {i : Nat} {s : LstState} (hnd : (lsts.map (·.mint)).Nodup)
    (hg : lsts[i]? = some s) (hm : s.mint = m) : findLst m lsts = .ok (i, s) := by
  refine findLst_ok.2 ⟨hg, hm, fun n t hn ht e => ?_⟩
  have := mint_index hnd ht hg (e.trans hm.symm)
  omega

/-- C85, SyncSolValue. -/
theorem C85_sync {cfg : Cfg} {L : RatioLib} {env : Env cfg} {tx : TxInfo} {w w' : World} {seen : List LstState} {m : MintAcc}
    {metas accs : List Acc} {ix : TopIx} (hr : Reachable cfg L w)
    (h : syncByMint cfg seen m metas = .ok ix) (hacc : SeenAs ix.accs accs)
    (hrun : processInstruction cfg L env tx w ix.program accs ix.data = .ok w') :
    syncByMint cfg w.ctl.lsts m metas = .ok ix := by
  have hnd := hr.inv.ctl.mints
  simp only [syncByMint, resolveSync, bind_ok, Prod.exists, poolReserves_ok, pure_ok, Prod.mk.injEq] at h
  obtain ⟨_, _, _, ⟨i, s, hf, res, hres, rfl, rfl, rfl⟩, hix⟩ := h
  simp only [syncIx, bind_ok, Prod.exists, indexToU32_ok, extendOne_ok, pure_ok] at hix
  obtain ⟨i', ⟨hi, hi'⟩, _, _, ⟨h8, rfl, rfl⟩, rfl⟩ := hix
  subst hi'
  obtain ⟨a, suf, hl, hk, hsuf⟩ := seen_sync hacc
  simp only [SyncKeys.metas, SyncAccs.list, SeenAs, List.forall₂_cons] at hk
  obtain ⟨e1, e2, e3, e4, -⟩ := hk
  obtain ⟨y, l', rfl, e5, hseen⟩ := hsuf.cons_inv
  have hw : (Ix.syncSolValue i').Wf := hi
  rw [processInstruction_of_decode _ _ _ _ _ (C38_roundtrip _ hw)] at hrun
  change processSync cfg env w accs i' = _ at hrun
  simp only [processSync, hl, verifySync, bind_ok, Prod.exists, require_ok, exists_const, checkKeys_ok, checkWritable_ok,
    matchLst_ok, mintProgram_ok, poolReserves_ok, getPool_ok, verifyActive_ok, List.forall_mem_cons, verifyCalcCpi_ok,
    Except.ok.injEq, Prod.mk.injEq] at hrun
  obtain ⟨_, _, ⟨rfl, rfl⟩, c, ⟨_, t, ⟨ht, htm⟩, tp, htp, res', hres', ⟨_, _, _, hk4, _⟩, _, p, hp, _, y', l'', t', hy, rfl, ht', hc⟩, _⟩ := hrun
  have hmint : a.lstMint.key = m.key := e1.key
  have k4 : a.poolReserves.key = res := e4.key
  have k5 : y.key = s.solValueCalculator := e5.key
  injection hy with hy1 hy2
  subst hy1
  rw [ht] at ht'
  injection ht' with ht'
  subst ht'
  have hown : tp = m.owner := by
    rw [← hk4, k4] at hres'
    exact (cfg.ata_inj hres' hres).2.1
  simp only [syncByMint, resolveSync, bind_ok, Prod.exists, poolReserves_ok, pure_ok, Prod.mk.injEq]
  refine ⟨_, _, _, ⟨i', t, found_now hnd ht (htm.trans hmint), res, ?_, rfl, rfl, rfl⟩, ?_⟩
  · rw [← hown, ← k4, hk4]; exact hres'
  · simp only [syncIx, bind_ok, Prod.exists, indexToU32_ok, extendOne_ok, pure_ok]
    refine ⟨i', ⟨hi, rfl⟩, _, _, ⟨h8, rfl, rfl⟩, ?_⟩
    rw [← k5, ← hc]

/-- What a swap checks leaves nothing to the client's choice. -/
theorem resolveSwap_now {cfg : Cfg} {w : World} {seen : List LstState} {r : SwapRequest} {k : SwapKeys} {f : Found} {accs : List Acc}
    {a : SwapAccs} {suf : List Acc} {c : SwapCpis} {p : PoolState} {s d : LstState} {stp dtp : Pubkey} {n n' : Nat} {sl dl : List Acc}
    (hnd : (w.ctl.lsts.map (·.mint)).Nodup) (hs : r.srcMetas = roMeta r.src.key :: sl) (hd : r.dstMetas = roMeta r.dst.key :: dl)
    (h : resolveSwap cfg seen r.signer r.srcAcc r.dstAcc r.src r.dst = .ok (k, f)) (hk : SeenAs k.metas a.list)
    (hsuf : SeenAs (roMeta f.srcCalc :: r.srcMetas.drop 1 ++ roMeta f.dstCalc :: r.dstMetas.drop 1 ++
      roMeta r.pricing.program :: r.pricing.metas.drop 2) suf)
    (hn : n = r.srcMetas.length) (hn' : n' = r.dstMetas.length)
    (hv : SwapVerified cfg w accs n n' f.srcIdx f.dstIdx a suf c p s d stp dtp) :
    resolveSwap cfg w.ctl.lsts r.signer r.srcAcc r.dstAcc r.src r.dst = .ok (k, f) := by
  simp only [resolveSwap, bind_ok, Prod.exists, poolReserves_ok, feeAccumulator_ok, pure_ok, Prod.mk.injEq] at h
  obtain ⟨i, s₀, hf, sr, hsr, j, d₀, hf', dr, hdr, fee, hfee, rfl, rfl⟩ := h
  simp only [SwapKeys.metas, SwapAccs.list, SeenAs, List.forall₂_cons] at hk
  obtain ⟨e1, e2, e3, e4, e5, e6, e7, e8, e9, e10, e11, e12, -⟩ := hk
  obtain ⟨xy, z, rfl, hxy, hz⟩ := hsuf.split
  obtain ⟨x, y, rfl, hx, hy⟩ := hxy.split
  have lx : x.length = n := by rw [hx.length, hn, hs]; simp
  have ly : y.length = n' := by rw [hy.length, hn', hd]; simp
  have hc := hv.cpis
  rw [swap_split lx ly] at hc
  simp only [bind_ok, verifyCalcCpi_ok] at hc
  obtain ⟨_, ⟨x0, x', s', rfl, rfl, hs', hxs⟩, _, ⟨y0, y', d', rfl, rfl, hd', hyd⟩, _⟩ := hc
  obtain ⟨_, _, hx1, ex, _⟩ := hx.cons_inv
  obtain ⟨_, _, hy1, ey, _⟩ := hy.cons_inv
  injection hx1 with hx1 _
  injection hy1 with hy1 _
  subst hx1 hy1
  obtain rfl := Option.some.inj (hv.srcSel.get.symm.trans hs')
  obtain rfl := Option.some.inj (hv.dstSel.get.symm.trans hd')
  have kx : x0.key = s₀.solValueCalculator := ex.key
  have ky : y0.key = d₀.solValueCalculator := ey.key
  have k2 : a.srcLstMint.key = r.src.key := e2.key
  have k3 : a.dstLstMint.key = r.dst.key := e3.key
  have k6 : a.protocolFeeAccumulator.key = fee := e6.key
  have k7 : a.srcLstTokenProgram.key = r.src.owner := e7.key
  have k8 : a.dstLstTokenProgram.key = r.dst.owner := e8.key
  have k11 : a.srcPoolReserves.key = sr := e11.key
  have k12 : a.dstPoolReserves.key = dr := e12.key
  have o1 := hv.srcTp_eq.symm.trans k7
  have o2 := hv.dstTp_eq.symm.trans k8
  simp only [resolveSwap, bind_ok, Prod.exists, poolReserves_ok, feeAccumulator_ok, pure_ok, Prod.mk.injEq]
  refine ⟨i, s, found_now hnd hv.srcSel.get (hv.srcSel.mint_eq.trans k2), sr, ?_, j, d, found_now hnd hv.dstSel.get (hv.dstSel.mint_eq.trans k3),
    dr, ?_, fee, ?_, rfl, ?_⟩
  · rw [← o1, ← k11]; exact hv.srcSel.res_eq
  · rw [← o2, ← k12]; exact hv.dstSel.res_eq
  · rw [← o2, ← k6]; exact hv.accum
  · rw [← kx, ← ky, ← hxs, ← hyd]

/-- C85, SwapExactIn. The account lists for the calculators start with the mints, as the client library requires. -/
theorem C85_swapExactIn {cfg : Cfg} {L : RatioLib} {env : Env cfg} {tx : TxInfo} {w w' : World} {seen : List LstState}
    {r : SwapRequest} {minAmountOut amount : Nat} {sl dl accs : List Acc} {ix : TopIx} (hr : Reachable cfg L w)
    (hs : r.srcMetas = roMeta r.src.key :: sl) (hd : r.dstMetas = roMeta r.dst.key :: dl)
    (hu : minAmountOut < 2 ^ 64 ∧ amount < 2 ^ 64) (h : swapExactInByMint cfg seen r minAmountOut amount = .ok ix) (hacc : SeenAs ix.accs accs)
    (hrun : processInstruction cfg L env tx w ix.program accs ix.data = .ok w') :
    swapExactInByMint cfg w.ctl.lsts r minAmountOut amount = .ok ix := by
  have hnd := hr.inv.ctl.mints
  simp only [swapExactInByMint, bind_ok, Prod.exists] at h ⊢
  obtain ⟨k, f, hres, hix⟩ := h
  refine ⟨k, f, ?_, hix⟩
  simp only [swapExactInIx, bind_ok, Prod.exists, indexToU32_ok, extendSrcDst_ok, extendSwap_ok, pure_ok] at hix
  obtain ⟨i, ⟨hi, ei⟩, j, ⟨hj, ej⟩, _, _, _, ⟨h1, h2, rfl, rfl, rfl⟩, _, _, ⟨_, _, rfl, rfl⟩, rfl⟩ := hix
  subst ei ej
  have hw : (Ix.swapExactIn ⟨r.srcMetas.length, r.dstMetas.length, f.srcIdx, f.dstIdx, minAmountOut, amount⟩).Wf :=
    ⟨Nat.lt_of_le_of_lt h1 (by decide), Nat.lt_of_le_of_lt h2 (by decide), hi, hj, hu.1, hu.2⟩
  rw [overwrite_same (encode_length_swapIn _ _), processInstruction_of_decode _ _ _ _ _ (C38_roundtrip _ hw)] at hrun
  change processSwapExactIn cfg L env w accs _ = _ at hrun
  simp only [List.append_assoc] at hacc
  obtain ⟨a, suf, hl, hk, hsuf⟩ := seen_swap hacc
  simp only [processSwapExactIn, bind_ok, Prod.exists, require_ok, exists_const, hl, Except.ok.injEq, Prod.mk.injEq] at hrun
  obtain ⟨_, _, _, ⟨rfl, rfl⟩, c, hv, _⟩ := hrun
  obtain ⟨p, s, d, stp, dtp, hv⟩ := verifySwap_inv hl hv
  exact resolveSwap_now hnd hs hd hres hk (by simpa only [List.append_assoc] using hsuf) rfl rfl hv

/-- C85, SwapExactOut. The account lists for the calculators start with the mints, as the client library requires. -/
theorem C85_swapExactOut {cfg : Cfg} {L : RatioLib} {env : Env cfg} {tx : TxInfo} {w w' : World} {seen : List LstState}
    {r : SwapRequest} {maxAmountIn amount : Nat} {sl dl accs : List Acc} {ix : TopIx} (hr : Reachable cfg L w)
    (hs : r.srcMetas = roMeta r.src.key :: sl) (hd : r.dstMetas = roMeta r.dst.key :: dl)
    (hu : maxAmountIn < 2 ^ 64 ∧ amount < 2 ^ 64) (h : swapExactOutByMint cfg seen r maxAmountIn amount = .ok ix) (hacc : SeenAs ix.accs accs)
    (hrun : processInstruction cfg L env tx w ix.program accs ix.data = .ok w') :
    swapExactOutByMint cfg w.ctl.lsts r maxAmountIn amount = .ok ix := by
  have hnd := hr.inv.ctl.mints
  simp only [swapExactOutByMint, bind_ok, Prod.exists] at h ⊢
  obtain ⟨k, f, hres, hix⟩ := h
  refine ⟨k, f, ?_, hix⟩
  simp only [swapExactOutIx, bind_ok, Prod.exists, indexToU32_ok, extendSrcDst_ok, extendSwap_ok, pure_ok] at hix
  obtain ⟨i, ⟨hi, ei⟩, j, ⟨hj, ej⟩, _, _, _, ⟨h1, h2, rfl, rfl, rfl⟩, _, _, ⟨_, _, rfl, rfl⟩, rfl⟩ := hix
  subst ei ej
  have hw : (Ix.swapExactOut ⟨r.srcMetas.length, r.dstMetas.length, f.srcIdx, f.dstIdx, maxAmountIn, amount⟩).Wf :=
    ⟨Nat.lt_of_le_of_lt h1 (by decide), Nat.lt_of_le_of_lt h2 (by decide), hi, hj, hu.1, hu.2⟩
  rw [overwrite_same (encode_length_swapOut _ _), processInstruction_of_decode _ _ _ _ _ (C38_roundtrip _ hw)] at hrun
  change processSwapExactOut cfg L env w accs _ = _ at hrun
  simp only [List.append_assoc] at hacc
  obtain ⟨a, suf, hl, hk, hsuf⟩ := seen_swap hacc
  simp only [processSwapExactOut, bind_ok, Prod.exists, require_ok, exists_const, hl, Except.ok.injEq, Prod.mk.injEq] at hrun
  obtain ⟨_, _, _, ⟨rfl, rfl⟩, c, hv, _⟩ := hrun
  obtain ⟨p, s, d, stp, dtp, hv⟩ := verifySwap_inv hl hv
  exact resolveSwap_now hnd hs hd hres hk (by simpa only [List.append_assoc] using hsuf) rfl rfl hv

/-- What adding and removing liquidity check leaves nothing to the client's choice. -/
theorem resolveLiq_now {cfg : Cfg} {w : World} {p₀ p : PoolState} {seen : List LstState} {r : LiqRequest} {k : LiqKeys} {i : Nat}
    {calculator pricing : Pubkey} {accs : List Acc} {a : LiqAccs} {suf : List Acc} {c : LpCpis} {s : LstState} {tp : Pubkey} {n : Nat}
    {cl : List Acc} {check : Bool} (hnd : (w.ctl.lsts.map (·.mint)).Nodup) (hm : r.calcMetas = roMeta r.mint.key :: cl)
    (h : resolveLiq cfg p₀ seen r.signer r.userLst r.userLp r.mint = .ok (k, i, calculator, pricing)) (hk : SeenAs k.metas a.list)
    (hsuf : SeenAs (roMeta calculator :: r.calcMetas.drop 1 ++ roMeta pricing :: r.priceMetas.drop 1) suf)
    (hn : n = r.calcMetas.length) (hv : LiqVerified cfg w accs n i check a suf c p s tp) :
    resolveLiq cfg p w.ctl.lsts r.signer r.userLst r.userLp r.mint = .ok (k, i, calculator, pricing) := by
  simp only [resolveLiq, bind_ok, Prod.exists, poolReserves_ok, feeAccumulator_ok, pure_ok, Prod.mk.injEq] at h
  obtain ⟨i, s₀, hf, res, hres, fee, hfee, rfl, rfl, rfl, rfl⟩ := h
  simp only [LiqKeys.metas, LiqAccs.list, SeenAs, List.forall₂_cons] at hk
  obtain ⟨e1, e2, e3, e4, e5, e6, e7, e8, e9, e10, e11, -⟩ := hk
  obtain ⟨x, y, rfl, hx, hy⟩ := hsuf.split
  have lx : x.length = n := by rw [hx.length, hn, hm]; simp
  have hc := hv.cpis
  rw [lp_split lx] at hc
  simp only [bind_ok, verifyCalcCpi_ok, verifyPriceCpi_ok] at hc
  obtain ⟨_, ⟨x0, x', s', rfl, rfl, hs', hxs⟩, _, ⟨y0, y', rfl, rfl, hyp⟩, _⟩ := hc
  obtain ⟨_, _, hx1, ex, _⟩ := hx.cons_inv
  obtain ⟨_, _, hy1, ey, _⟩ := hy.cons_inv
  injection hx1 with hx1 _
  injection hy1 with hy1 _
  subst hx1 hy1
  obtain rfl := Option.some.inj (hv.sel.get.symm.trans hs')
  have kx : x0.key = s₀.solValueCalculator := ex.key
  have ky : y0.key = p₀.pricingProgram := ey.key
  have k2 : a.lstMint.key = r.mint.key := e2.key
  have k5 : a.lpTokenMint.key = p₀.lpTokenMint := e5.key
  have k6 : a.protocolFeeAccumulator.key = fee := e6.key
  have k7 : a.lstTokenProgram.key = r.mint.owner := e7.key
  have k11 : a.poolReserves.key = res := e11.key
  have o1 := hv.tp_eq.symm.trans k7
  simp only [resolveLiq, bind_ok, Prod.exists, poolReserves_ok, feeAccumulator_ok, pure_ok, Prod.mk.injEq]
  refine ⟨i, s, found_now hnd hv.sel.get (hv.sel.mint_eq.trans k2), res, ?_, fee, ?_, ?_, rfl, ?_, ?_⟩
  · rw [← o1, ← k11]; exact hv.sel.res_eq
  · rw [← o1, ← k6]; exact hv.accum
  · rw [← k5, hv.lpMint]
  · rw [← kx, ← hxs]
  · rw [← ky, ← hyp]

/-- C85, AddLiquidity. -/
theorem C85_addLiquidity {cfg : Cfg} {L : RatioLib} {env : Env cfg} {tx : TxInfo} {w w' : World} {p₀ : PoolState} {seen : List LstState}
    {r : LiqRequest} {lstAmount minLpOut : Nat} {cl accs : List Acc} {ix : TopIx} (hr : Reachable cfg L w)
    (hm : r.calcMetas = roMeta r.mint.key :: cl)
    (hu : lstAmount < 2 ^ 64 ∧ minLpOut < 2 ^ 64) (h : addLiquidityByMint cfg p₀ seen r lstAmount minLpOut = .ok ix) (hacc : SeenAs ix.accs accs)
    (hrun : processInstruction cfg L env tx w ix.program accs ix.data = .ok w') :
    ∃ p, w.ctl.pool = some p ∧ addLiquidityByMint cfg p w.ctl.lsts r lstAmount minLpOut = .ok ix := by
  have hnd := hr.inv.ctl.mints
  simp only [addLiquidityByMint, bind_ok, Prod.exists] at h ⊢
  obtain ⟨k, i, c, q, hres, hix⟩ := h
  have hix' := hix
  simp only [addLiquidityIx, bind_ok, Prod.exists, indexToU32_ok, extendOne_ok, pure_ok] at hix
  obtain ⟨i, ⟨hi, ei⟩, _, _, ⟨h1, rfl, rfl⟩, _, _, ⟨_, rfl, rfl⟩, rfl⟩ := hix
  subst ei
  have hw : (Ix.addLiquidity ⟨r.calcMetas.length, i, lstAmount, minLpOut⟩).Wf :=
    ⟨Nat.lt_of_le_of_lt h1 (by decide), hi, hu.1, hu.2⟩
  rw [overwrite_same (encode_length_add _ _), processInstruction_of_decode _ _ _ _ _ (C38_roundtrip _ hw)] at hrun
  change processAddLiquidity cfg L env w accs _ = _ at hrun
  simp only [List.append_assoc] at hacc
  obtain ⟨a, suf, hl, hk, hsuf⟩ := seen_liq hacc
  simp only [processAddLiquidity, bind_ok, Prod.exists, require_ok, exists_const, hl, Except.ok.injEq, Prod.mk.injEq] at hrun
  obtain ⟨_, _, _, ⟨rfl, rfl⟩, cc, hv, _⟩ := hrun
  obtain ⟨p, s, tp, hv⟩ := verifyLiq_inv hl hv
  exact ⟨p, hv.pool, k, i, c, q, resolveLiq_now hnd hm hres hk (by simpa only [List.append_assoc] using hsuf) rfl hv, hix'⟩

/-- C85, RemoveLiquidity. -/
theorem C85_removeLiquidity {cfg : Cfg} {L : RatioLib} {env : Env cfg} {tx : TxInfo} {w w' : World} {p₀ : PoolState} {seen : List LstState}
    {r : LiqRequest} {lpTokenAmount minLstOut : Nat} {cl accs : List Acc} {ix : TopIx} (hr : Reachable cfg L w)
    (hm : r.calcMetas = roMeta r.mint.key :: cl)
    (hu : lpTokenAmount < 2 ^ 64 ∧ minLstOut < 2 ^ 64) (h : removeLiquidityByMint cfg p₀ seen r lpTokenAmount minLstOut = .ok ix) (hacc : SeenAs ix.accs accs)
    (hrun : processInstruction cfg L env tx w ix.program accs ix.data = .ok w') :
    ∃ p, w.ctl.pool = some p ∧ removeLiquidityByMint cfg p w.ctl.lsts r lpTokenAmount minLstOut = .ok ix := by
  have hnd := hr.inv.ctl.mints
  simp only [removeLiquidityByMint, bind_ok, Prod.exists] at h ⊢
  obtain ⟨k, i, c, q, hres, hix⟩ := h
  have hix' := hix
  simp only [removeLiquidityIx, bind_ok, Prod.exists, indexToU32_ok, extendOne_ok, pure_ok] at hix
  obtain ⟨i, ⟨hi, ei⟩, _, _, ⟨h1, rfl, rfl⟩, _, _, ⟨_, rfl, rfl⟩, rfl⟩ := hix
  subst ei
  have hw : (Ix.removeLiquidity ⟨r.calcMetas.length, i, lpTokenAmount, minLstOut⟩).Wf :=
    ⟨Nat.lt_of_le_of_lt h1 (by decide), hi, hu.1, hu.2⟩
  rw [overwrite_same (encode_length_remove _ _), processInstruction_of_decode _ _ _ _ _ (C38_roundtrip _ hw)] at hrun
  change processRemoveLiquidity cfg L env w accs _ = _ at hrun
  simp only [List.append_assoc] at hacc
  obtain ⟨a, suf, hl, hk, hsuf⟩ := seen_liq hacc
  simp only [processRemoveLiquidity, bind_ok, Prod.exists, require_ok, exists_const, hl, Except.ok.injEq, Prod.mk.injEq] at hrun
  obtain ⟨_, _, _, ⟨rfl, rfl⟩, cc, hv, _⟩ := hrun
  obtain ⟨p, s, tp, hv⟩ := verifyLiq_inv hl hv
  exact ⟨p, hv.pool, k, i, c, q, resolveLiq_now hnd hm hres hk (by simpa only [List.append_assoc] using hsuf) rfl hv, hix'⟩

/-- C85, DisableLstInput and EnableLstInput. -/
theorem C85_lstInput {cfg : Cfg} {L : RatioLib} {env : Env cfg} {tx : TxInfo} {w w' : World} {p₀ : PoolState} {seen : List LstState}
    {disable : Bool} {mint : Pubkey} {accs : List Acc} {ix : TopIx} (hr : Reachable cfg L w)
    (h : lstInputByMint cfg p₀ seen disable mint = .ok ix) (hacc : SeenAs ix.accs accs)
    (hrun : processInstruction cfg L env tx w ix.program accs ix.data = .ok w') :
    ∃ p, w.ctl.pool = some p ∧ p₀.admin = p.admin ∧ lstInputByMint cfg p w.ctl.lsts disable mint = .ok ix := by
  have hnd := hr.inv.ctl.mints
  simp only [lstInputByMint, resolveInput, bind_ok, Prod.exists, indexToU32_ok, pure_ok, Prod.mk.injEq] at h
  obtain ⟨_, _, ⟨i, s, hf, rfl, rfl⟩, i', ⟨hi, e⟩, rfl⟩ := h
  subst e
  simp only [InputKeys.metas, SeenAs, List.forall₂_cons_left_iff, List.forall₂_nil_left_iff] at hacc
  obtain ⟨x1, _, e1, ⟨x2, _, e2, ⟨x3, _, e3, ⟨x4, _, e4, rfl, rfl⟩, rfl⟩, rfl⟩, rfl⟩ := hacc
  have key : ∃ flag, processSetLstInput cfg w [x1, x2, x3, x4] i' flag = .ok w' := by
    cases disable with
    | true =>
      have hw : (Ix.disableLstInput i').Wf := hi
      exact ⟨1, (processInstruction_of_decode _ _ _ _ _ (C38_roundtrip _ hw)).symm.trans hrun⟩
    | false =>
      have hw : (Ix.enableLstInput i').Wf := hi
      exact ⟨0, (processInstruction_of_decode _ _ _ _ _ (C38_roundtrip _ hw)).symm.trans hrun⟩
  obtain ⟨flag, hrun⟩ := key
  obtain ⟨a, t, p, hl, ht, hp, hadm, _, hm, _⟩ := processSetLstInput_inv hrun
  simp only [LstInputAccs.load, Except.ok.injEq] at hl
  subst hl
  have k1 := e1.key.symm.trans hadm
  have k2 := e2.key.symm.trans hm
  simp only [sgMeta, roMeta] at k1 k2
  obtain ⟨_, hsm, _⟩ := findLst_ok.1 hf
  refine ⟨p, hp, k1, ?_⟩
  simp only [lstInputByMint, resolveInput, bind_ok, Prod.exists, indexToU32_ok, pure_ok, Prod.mk.injEq]
  refine ⟨_, _, ⟨i', t, found_now hnd ht (k2.symm.trans hsm), rfl, rfl⟩, i', ⟨hi, rfl⟩, ?_⟩
  rw [k1, k2]

/-- C85, RemoveLst. -/
theorem C85_removeLst {cfg : Cfg} {L : RatioLib} {env : Env cfg} {tx : TxInfo} {w w' : World} {p₀ : PoolState} {seen : List LstState}
    {refund : Pubkey} {m : MintAcc} {accs : List Acc} {ix : TopIx} (hr : Reachable cfg L w)
    (h : removeLstByMint cfg p₀ seen refund m = .ok ix) (hacc : SeenAs ix.accs accs)
    (hrun : processInstruction cfg L env tx w ix.program accs ix.data = .ok w') :
    ∃ p, w.ctl.pool = some p ∧ m.OnChain w.led ∧ removeLstByMint cfg p w.ctl.lsts refund m = .ok ix := by
  have hnd := hr.inv.ctl.mints
  simp only [removeLstByMint, resolveRemoveLst, bind_ok, Prod.exists, poolReserves_ok, feeAccumulator_ok, require_ok,
    exists_const, pure_ok, Prod.mk.injEq] at h
  obtain ⟨_, _, ⟨i, s, hf, res, hres, fee, hfee, hi, rfl, rfl⟩, rfl⟩ := h
  simp only [RemoveLstKeys.metas, SeenAs, List.forall₂_cons_left_iff, List.forall₂_nil_left_iff] at hacc
  obtain ⟨_, _, e1, ⟨_, _, e2, ⟨_, _, e3, ⟨_, _, e4, ⟨_, _, e5, ⟨_, _, e6, ⟨_, _, e7, ⟨_, _, e8, ⟨_, _, e9,
    rfl, rfl⟩, rfl⟩, rfl⟩, rfl⟩, rfl⟩, rfl⟩, rfl⟩, rfl⟩, rfl⟩ := hacc
  have hw : (Ix.removeLst i).Wf := hi
  rw [processInstruction_of_decode _ _ _ _ _ (C38_roundtrip _ hw)] at hrun
  change processRemoveLst _ _ _ _ = _ at hrun
  obtain ⟨r⟩ := processRemoveLst_inv hrun
  have hl := r.load
  simp only [RemoveLstAccs.load, Except.ok.injEq] at hl
  have k1 := e1.key.symm.trans ((congrArg (·.admin.key) hl).trans r.admin)
  have k3 : m.key = r.a.lstMint.key := e3.key.symm.trans (congrArg (·.lstMint.key) hl)
  have k4 : res = r.a.poolReserves.key := e4.key.symm.trans (congrArg (·.poolReserves.key) hl)
  have k5 : fee = r.a.protocolFeeAccumulator.key := e5.key.symm.trans (congrArg (·.protocolFeeAccumulator.key) hl)
  have h1 := r.sel.res_eq
  have h2 := r.accum
  rw [← k4] at h1
  rw [← k5] at h2
  have o := (cfg.ata_inj hres h1).2.1
  rw [← o] at h1 h2
  obtain ⟨mi, hmi, hmp⟩ := r.sel.prog
  refine ⟨r.p, r.pool, ⟨mi, k3 ▸ hmi, hmp.trans o.symm⟩, ?_⟩
  simp only [removeLstByMint, resolveRemoveLst, bind_ok, Prod.exists, poolReserves_ok, feeAccumulator_ok, require_ok,
    exists_const, pure_ok, Prod.mk.injEq]
  refine ⟨_, _, ⟨i, r.s, found_now hnd r.sel.get (r.sel.mint_eq.trans k3.symm), res, h1, fee, h2, hi, rfl, rfl⟩, ?_⟩
  simp only [sgMeta] at k1
  rw [k1]

/-- C85, SetSolValueCalculator. -/
theorem C85_setCalc {cfg : Cfg} {L : RatioLib} {env : Env cfg} {tx : TxInfo} {w w' : World} {p₀ : PoolState} {seen : List LstState}
    {m : MintAcc} {calculator : Callee} {accs : List Acc} {ix : TopIx} (hr : Reachable cfg L w)
    (h : setCalcByMint cfg p₀ seen m calculator = .ok ix) (hacc : SeenAs ix.accs accs)
    (hrun : processInstruction cfg L env tx w ix.program accs ix.data = .ok w') :
    ∃ p, w.ctl.pool = some p ∧ p₀.admin = p.admin ∧ m.OnChain w.led ∧ setCalcByMint cfg p w.ctl.lsts m calculator = .ok ix := by
  have hnd := hr.inv.ctl.mints
  simp only [setCalcByMint, resolveSetCalc, bind_ok, Prod.exists, poolReserves_ok, pure_ok, Prod.mk.injEq] at h
  obtain ⟨_, _, ⟨i, s, hf, res, hres, rfl, rfl⟩, hix⟩ := h
  simp only [setCalcIx, bind_ok, Prod.exists, indexToU32_ok, extendOne_ok, pure_ok] at hix
  obtain ⟨i', ⟨hi, hi'⟩, _, _, ⟨h8, rfl, rfl⟩, rfl⟩ := hix
  subst hi'
  obtain ⟨a, suf, hl, hk, hsuf⟩ := seen_setCalc hacc
  simp only [SetCalcKeys.metas, SetCalcAccs.list, SeenAs, List.forall₂_cons] at hk
  obtain ⟨e1, e2, e3, e4, e5, -⟩ := hk
  have hw : (Ix.setSolValueCalculator i').Wf := hi
  rw [processInstruction_of_decode _ _ _ _ _ (C38_roundtrip _ hw)] at hrun
  change processSetSolValueCalculator cfg env w accs i' = _ at hrun
  obtain ⟨r⟩ := processSetSolValueCalculator_inv hrun
  have hl' := hl.symm.trans r.load
  simp only [Except.ok.injEq, Prod.mk.injEq] at hl'
  obtain ⟨hl', _⟩ := hl'
  have k1 := e1.key.symm.trans ((congrArg (·.admin.key) hl').trans r.admin)
  have k2 := e2.key.symm.trans (congrArg (·.lstMint.key) hl')
  have k4 : res = r.a.poolReserves.key := e4.key.symm.trans (congrArg (·.poolReserves.key) hl')
  simp only [sgMeta, roMeta] at k1 k2
  obtain ⟨_, hsm, _⟩ := findLst_ok.1 hf
  have h1 := r.sel.res_eq
  rw [← k4] at h1
  have o := (cfg.ata_inj hres h1).2.1
  rw [← o] at h1
  obtain ⟨mi, hmi, hmp⟩ := r.sel.prog
  refine ⟨r.p, r.pool, k1, ⟨mi, (k2.symm.trans hsm) ▸ hmi, hmp.trans o.symm⟩, ?_⟩
  simp only [setCalcByMint, resolveSetCalc, bind_ok, Prod.exists, poolReserves_ok, pure_ok, Prod.mk.injEq]
  refine ⟨_, _, ⟨i', r.s, found_now hnd r.sel.get (r.sel.mint_eq.trans (k2.symm.trans hsm)), res, h1, rfl, rfl⟩, ?_⟩
  simp only [setCalcIx, bind_ok, Prod.exists, indexToU32_ok, extendOne_ok, pure_ok]
  refine ⟨i', ⟨hi, rfl⟩, _, _, ⟨h8, rfl, rfl⟩, ?_⟩
  rw [← k1, r.sel.mint_eq, ← k2]

/-- C85, StartRebalance. -/
theorem C85_startRebalance {cfg : Cfg} {L : RatioLib} {env : Env cfg} {tx : TxInfo} {w w' : World} {p₀ : PoolState}
    {seen : List LstState} {withdrawTo : Pubkey} {src dst : MintAcc} {amts : StartAmts} {sl dl accs : List Acc} {ix : TopIx}
    (hr : Reachable cfg L w)
    (hu : amts.amount < 2 ^ 64 ∧ amts.minStartingSrcLst < 2 ^ 64 ∧ amts.maxStartingDstLst < 2 ^ 64)
    (h : startRebalanceByMints cfg p₀ seen withdrawTo src dst amts (roMeta src.key :: sl) (roMeta dst.key :: dl) = .ok ix)
    (hacc : SeenAs ix.accs accs)
    (hrun : processInstruction cfg L env tx w ix.program accs ix.data = .ok w') :
    ∃ p, w.ctl.pool = some p ∧ p₀.rebalanceAuthority = p.rebalanceAuthority ∧
      startRebalanceByMints cfg p w.ctl.lsts withdrawTo src dst amts (roMeta src.key :: sl) (roMeta dst.key :: dl) = .ok ix := by
  have hnd := hr.inv.ctl.mints
  simp only [startRebalanceByMints, resolveStart, bind_ok, Prod.exists, poolReserves_ok, pure_ok, Prod.mk.injEq] at h
  obtain ⟨_, _, ⟨i, s₀, hf, sr, hsr, j, d₀, hf', dr, hdr, rfl, rfl⟩, hix⟩ := h
  simp only [startRebalanceIx, bind_ok, Prod.exists, indexToU32_ok, extendSrcDst_ok, pure_ok] at hix
  obtain ⟨i, ⟨hi, ei⟩, j, ⟨hj, ej⟩, _, _, _, ⟨h1, h2, rfl, rfl, rfl⟩, rfl⟩ := hix
  subst ei ej
  have hw : (Ix.startRebalance ⟨(roMeta src.key :: sl).length, i, j, amts.amount, amts.minStartingSrcLst, amts.maxStartingDstLst⟩).Wf :=
    ⟨Nat.lt_of_le_of_lt h1 (by decide), hi, hj, hu.1, hu.2.1, hu.2.2⟩
  rw [overwrite_same (encode_length_start _ _), processInstruction_of_decode _ _ _ _ _ (C38_roundtrip _ hw)] at hrun
  change processStartRebalance cfg env tx w accs _ = _ at hrun
  obtain ⟨r⟩ := processStartRebalance_inv hrun
  simp only [List.append_assoc] at hacc
  obtain ⟨a, suf, hl, hk, hsuf⟩ := seen_start hacc
  obtain ⟨x, y, rfl, hx, hy⟩ := hsuf.split
  have hl' := hl.symm.trans r.load
  simp only [Except.ok.injEq, Prod.mk.injEq] at hl'
  obtain ⟨hl', hsuf'⟩ := hl'
  simp only [StartKeys.metas, StartRebAccs.list, SeenAs, List.forall₂_cons] at hk
  obtain ⟨e1, e2, e3, e4, e5, e6, e7, e8, e9, e10, e11, e12, -⟩ := hk
  have lx : x.length = (roMeta src.key :: sl).length := by rw [hx.length]; simp
  have hc := r.cpis
  rw [← hsuf', srcDst_split lx] at hc
  simp only [bind_ok, verifyCalcCpi_ok] at hc
  obtain ⟨_, ⟨x0, x', s', rfl, _, hs', hxs⟩, _, ⟨y0, y', d', rfl, _, hd', hyd⟩, _⟩ := hc
  obtain ⟨_, _, hx1, ex, _⟩ := hx.cons_inv
  obtain ⟨_, _, hy1, ey, _⟩ := hy.cons_inv
  injection hx1 with hx1 _
  injection hy1 with hy1 _
  subst hx1 hy1
  have es := Option.some.inj (r.srcSel.get.symm.trans hs')
  have ed := Option.some.inj (r.dstSel.get.symm.trans hd')
  rw [← es] at hxs
  rw [← ed] at hyd
  have kx : x0.key = s₀.solValueCalculator := ex.key
  have ky : y0.key = d₀.solValueCalculator := ey.key
  have k1 := e1.key.symm.trans ((congrArg (·.rebalanceAuthority.key) hl').trans r.auth)
  have k5 := e5.key.symm.trans (congrArg (·.srcLstMint.key) hl')
  have k6 := e6.key.symm.trans (congrArg (·.dstLstMint.key) hl')
  have k7 : sr = r.a.srcPoolReserves.key := e7.key.symm.trans (congrArg (·.srcPoolReserves.key) hl')
  have k8 : dr = r.a.dstPoolReserves.key := e8.key.symm.trans (congrArg (·.dstPoolReserves.key) hl')
  simp only [sgMeta, roMeta] at k1 k5 k6
  obtain ⟨_, hsm, _⟩ := findLst_ok.1 hf
  obtain ⟨_, hdm, _⟩ := findLst_ok.1 hf'
  have g1 := r.srcSel.res_eq
  have g2 := r.dstSel.res_eq
  rw [← k7] at g1
  rw [← k8] at g2
  rw [← (cfg.ata_inj hsr g1).2.1] at g1
  rw [← (cfg.ata_inj hdr g2).2.1] at g2
  have m1 := r.srcSel.mint_eq.trans k5.symm
  have m2 := r.dstSel.mint_eq.trans k6.symm
  refine ⟨r.p, r.pool, k1, ?_⟩
  simp only [startRebalanceByMints, resolveStart, bind_ok, Prod.exists, poolReserves_ok, pure_ok, Prod.mk.injEq]
  refine ⟨_, _, ⟨i, r.src, found_now hnd r.srcSel.get (m1.trans hsm), sr, g1, j, r.dst, found_now hnd r.dstSel.get (m2.trans hdm), dr, g2,
    rfl, rfl⟩, ?_⟩
  simp only [startRebalanceIx, bind_ok, Prod.exists, indexToU32_ok, extendSrcDst_ok, pure_ok]
  refine ⟨i, ⟨hi, rfl⟩, j, ⟨hj, rfl⟩, _, _, _, ⟨h1, h2, rfl, rfl, rfl⟩, ?_⟩
  rw [← k1, m1, m2, ← hxs, ← hyd, kx, ky]

/-- C85, RemoveDisablePoolAuthority. -/
theorem C85_removeAuth {cfg : Cfg} {L : RatioLib} {env : Env cfg} {tx : TxInfo} {w w' : World} {seen : List Pubkey}
    {refund signer authority : Pubkey} {accs : List Acc} {ix : TopIx} (hr : Reachable cfg L w)
    (h : removeAuthByPubkey cfg seen refund signer authority = .ok ix) (hacc : SeenAs ix.accs accs)
    (hrun : processInstruction cfg L env tx w ix.program accs ix.data = .ok w') :
    removeAuthByPubkey cfg w.ctl.auths refund signer authority = .ok ix := by
  have hnd := hr.inv.ctl.auths
  simp only [removeAuthByPubkey, resolveRemoveAuth, bind_ok, Prod.exists, okOr_ok, indexToU32_ok, pure_ok,
    Prod.mk.injEq] at h
  obtain ⟨_, _, ⟨i, x, hf, i', ⟨hi, e'⟩, rfl, rfl⟩, rfl⟩ := h
  subst e'
  simp only [RemoveAuthKeys.metas, SeenAs, List.forall₂_cons_left_iff, List.forall₂_nil_left_iff] at hacc
  obtain ⟨_, _, e1, ⟨_, _, e2, ⟨_, _, e3, ⟨_, _, e4, ⟨_, _, e5, rfl, rfl⟩, rfl⟩, rfl⟩, rfl⟩, rfl⟩ := hacc
  have hw : (Ix.removeDisablePoolAuthority i').Wf := hi
  rw [processInstruction_of_decode _ _ _ _ _ (C38_roundtrip _ hw)] at hrun
  change processRemoveAuth _ _ _ _ = _ at hrun
  obtain ⟨a, p, hl, _, ha, _⟩ := processRemoveAuth_inv hrun
  simp only [RemoveAuthAccs.load, Except.ok.injEq] at hl
  have k3 : authority = a.authority.key := e3.key.symm.trans (congrArg (·.authority.key) hl)
  rw [← k3] at ha
  simp only [removeAuthByPubkey, resolveRemoveAuth, bind_ok, Prod.exists, okOr_ok, indexToU32_ok, pure_ok,
    Prod.mk.injEq]
  refine ⟨_, _, ⟨i', authority, findAuth_some.2 ⟨ha, rfl, fun n t hn ht e => ?_⟩, i', ⟨hi, rfl⟩, rfl, rfl⟩, rfl⟩
  have := (List.getElem?_inj (i := i') (j := n) (List.getElem?_eq_some_iff.1 ha).1 hnd).1 (by rw [ha, ht, e])
  omega

/-! ### The administrative commands (`AdminCli`, C60)

`w₀` is the state the command read, `w` the one its transaction meets. -/

/-- The program accepts the instruction in state `w`. -/
def Lands (cfg : Cfg) (L : RatioLib) (w : World) (ix : TopIx) : Prop :=
  ∃ (env : Env cfg) (tx : TxInfo) (accs : List Acc) (w' : World), SeenAs ix.accs accs ∧
    processInstruction cfg L env tx w ix.program accs ix.data = .ok w'

section
variable {cfg : Cfg} {L : RatioLib} {w₀ w : World} {signer : Pubkey} {ix : TopIx}

theorem fetchAdmin_ok {w : World} {signer : Pubkey} {p : PoolState} :
    fetchAdmin w signer = .ok p ↔ w.ctl.pool = some p ∧ p.admin = signer := by
  simp only [fetchAdmin, fetchPool, bind_ok, okOr_ok, require_ok, exists_const, pure_ok]
  constructor
  · rintro ⟨_, h, e, rfl⟩; exact ⟨h, e⟩
  · rintro ⟨h, e⟩; exact ⟨p, h, e, rfl⟩

theorem fetchAdminOrAuth_ok {w : World} {signer : Pubkey} {p : PoolState} :
    fetchAdminOrAuth w signer = .ok p ↔ w.ctl.pool = some p ∧ (p.admin = signer ∨ signer ∈ w.ctl.auths) := by
  simp only [fetchAdminOrAuth, fetchPool, bind_ok, okOr_ok, require_ok, exists_const, pure_ok]
  constructor
  · rintro ⟨_, h, e, rfl⟩; exact ⟨h, e⟩
  · rintro ⟨h, e⟩; exact ⟨p, h, e, rfl⟩

theorem C85_cmd_setAdmin {new : Pubkey} (h : AdminCli.setAdmin cfg w₀ signer new = .ok ix)
    (hl : Lands cfg L w ix) : AdminCli.setAdmin cfg w signer new = .ok ix := by
  simp only [AdminCli.setAdmin, bind_ok, fetchAdmin_ok, pure_ok] at h ⊢
  obtain ⟨p₀, ⟨_, rfl⟩, rfl⟩ := h
  obtain ⟨env, tx, accs, w', hacc, hrun⟩ := hl
  simp only [SeenAs, List.forall₂_cons_left_iff, List.forall₂_nil_left_iff] at hacc
  obtain ⟨x1, _, e1, ⟨x2, _, e2, ⟨x3, _, e3, rfl, rfl⟩, rfl⟩, rfl⟩ := hacc
  rw [processInstruction_of_decode _ _ _ _ _ (C38_roundtrip (Ix.setAdmin) trivial)] at hrun
  change processSetAdmin cfg w [x1, x2, x3] = _ at hrun
  obtain ⟨a, p, ha, hp, k, _⟩ := processSetAdmin_inv hrun
  simp only [SetAdminAccs.load, Except.ok.injEq] at ha
  have k1 := e1.key.symm.trans ((congrArg (·.currentAdmin.key) ha).trans k)
  simp only [sgMeta] at k1
  exact ⟨p, ⟨hp, k1.symm⟩, by rw [k1]⟩

theorem C85_cmd_setPricing {new : Pubkey} (h : AdminCli.setPricing cfg w₀ signer new = .ok ix)
    (hl : Lands cfg L w ix) : AdminCli.setPricing cfg w signer new = .ok ix := by
  simp only [AdminCli.setPricing, bind_ok, fetchAdmin_ok, pure_ok] at h ⊢
  obtain ⟨p₀, ⟨_, rfl⟩, rfl⟩ := h
  obtain ⟨env, tx, accs, w', hacc, hrun⟩ := hl
  simp only [SeenAs, List.forall₂_cons_left_iff, List.forall₂_nil_left_iff] at hacc
  obtain ⟨x1, _, e1, ⟨x2, _, e2, ⟨x3, _, e3, rfl, rfl⟩, rfl⟩, rfl⟩ := hacc
  rw [processInstruction_of_decode _ _ _ _ _ (C38_roundtrip (Ix.setPricingProgram) trivial)] at hrun
  change processSetPricing cfg w [x1, x2, x3] = _ at hrun
  obtain ⟨a, p, ha, hp, k, _⟩ := processSetPricing_inv hrun
  simp only [SetPricingAccs.load, Except.ok.injEq] at ha
  have k1 := e1.key.symm.trans ((congrArg (·.admin.key) ha).trans k)
  simp only [sgMeta] at k1
  exact ⟨p, ⟨hp, k1.symm⟩, by rw [k1]⟩

theorem C85_cmd_setProtocolFee {args : SetProtocolFeeArgs} (hw : (Ix.setProtocolFee args).Wf) (h : AdminCli.setProtocolFee cfg w₀ signer args = .ok ix)
    (hl : Lands cfg L w ix) : AdminCli.setProtocolFee cfg w signer args = .ok ix := by
  simp only [AdminCli.setProtocolFee, bind_ok, fetchAdmin_ok, pure_ok] at h ⊢
  obtain ⟨p₀, ⟨_, rfl⟩, rfl⟩ := h
  obtain ⟨env, tx, accs, w', hacc, hrun⟩ := hl
  simp only [SeenAs, List.forall₂_cons_left_iff, List.forall₂_nil_left_iff] at hacc
  obtain ⟨x1, _, e1, ⟨x2, _, e2, rfl, rfl⟩, rfl⟩ := hacc
  rw [processInstruction_of_decode _ _ _ _ _ (C38_roundtrip (Ix.setProtocolFee args) hw)] at hrun
  change processSetProtocolFee cfg w [x1, x2] args = _ at hrun
  obtain ⟨a, p, ha, hp, k, _⟩ := processSetProtocolFee_inv hrun
  simp only [SetFeeAccs.load, Except.ok.injEq] at ha
  have k1 := e1.key.symm.trans ((congrArg (·.admin.key) ha).trans k)
  simp only [sgMeta] at k1
  exact ⟨p, ⟨hp, k1.symm⟩, by rw [k1]⟩

theorem C85_cmd_enablePool (h : AdminCli.enablePool cfg w₀ signer = .ok ix)
    (hl : Lands cfg L w ix) : AdminCli.enablePool cfg w signer = .ok ix := by
  simp only [AdminCli.enablePool, bind_ok, fetchAdmin_ok, pure_ok] at h ⊢
  obtain ⟨p₀, ⟨_, rfl⟩, rfl⟩ := h
  obtain ⟨env, tx, accs, w', hacc, hrun⟩ := hl
  simp only [SeenAs, List.forall₂_cons_left_iff, List.forall₂_nil_left_iff] at hacc
  obtain ⟨x1, _, e1, ⟨x2, _, e2, rfl, rfl⟩, rfl⟩ := hacc
  rw [processInstruction_of_decode _ _ _ _ _ (C38_roundtrip (Ix.enablePool) trivial)] at hrun
  change processEnablePool cfg w [x1, x2] = _ at hrun
  obtain ⟨a, p, ha, hp, k, _⟩ := processEnablePool_inv hrun
  simp only [EnablePoolAccs.load, Except.ok.injEq] at ha
  have k1 := e1.key.symm.trans ((congrArg (·.admin.key) ha).trans k)
  simp only [sgMeta] at k1
  exact ⟨p, ⟨hp, k1.symm⟩, by rw [k1]⟩

theorem C85_cmd_addAuth {payer new : Pubkey} (h : AdminCli.addAuth cfg w₀ signer payer new = .ok ix)
    (hl : Lands cfg L w ix) : AdminCli.addAuth cfg w signer payer new = .ok ix := by
  simp only [AdminCli.addAuth, bind_ok, fetchAdmin_ok, pure_ok] at h ⊢
  obtain ⟨p₀, ⟨_, rfl⟩, rfl⟩ := h
  obtain ⟨env, tx, accs, w', hacc, hrun⟩ := hl
  simp only [SeenAs, List.forall₂_cons_left_iff, List.forall₂_nil_left_iff] at hacc
  obtain ⟨x1, _, e1, ⟨x2, _, e2, ⟨x3, _, e3, ⟨x4, _, e4, ⟨x5, _, e5, ⟨x6, _, e6, rfl, rfl⟩, rfl⟩, rfl⟩, rfl⟩, rfl⟩, rfl⟩ := hacc
  rw [processInstruction_of_decode _ _ _ _ _ (C38_roundtrip (Ix.addDisablePoolAuthority) trivial)] at hrun
  change processAddAuth cfg w [x1, x2, x3, x4, x5, x6] = _ at hrun
  obtain ⟨a, p, ha, hp, k, _⟩ := processAddAuth_inv hrun
  simp only [AddAuthAccs.load, Except.ok.injEq] at ha
  have k1 := e2.key.symm.trans ((congrArg (·.admin.key) ha).trans k)
  simp only [sgMeta] at k1
  exact ⟨p, ⟨hp, k1.symm⟩, by rw [k1]⟩

theorem C85_cmd_setBeneficiary {new : Pubkey} (h : AdminCli.setBeneficiary cfg w₀ signer new = .ok ix) (hl : Lands cfg L w ix) :
    AdminCli.setBeneficiary cfg w signer new = .ok ix := by
  simp only [AdminCli.setBeneficiary, fetchPool, bind_ok, okOr_ok, require_ok, exists_const, pure_ok] at h ⊢
  obtain ⟨p₀, _, rfl, rfl⟩ := h
  obtain ⟨env, tx, accs, w', hacc, hrun⟩ := hl
  simp only [SeenAs, List.forall₂_cons_left_iff, List.forall₂_nil_left_iff] at hacc
  obtain ⟨x1, _, e1, ⟨x2, _, e2, ⟨x3, _, e3, rfl, rfl⟩, rfl⟩, rfl⟩ := hacc
  rw [processInstruction_of_decode _ _ _ _ _ (C38_roundtrip Ix.setProtocolFeeBeneficiary trivial)] at hrun
  change processSetBeneficiary cfg w [x1, x2, x3] = _ at hrun
  obtain ⟨a, p, ha, hp, k, _⟩ := processSetBeneficiary_inv hrun
  simp only [SetBeneficiaryAccs.load, Except.ok.injEq] at ha
  have k1 := e1.key.symm.trans ((congrArg (·.currentBeneficiary.key) ha).trans k)
  simp only [sgMeta] at k1
  exact ⟨p, hp, k1.symm, by rw [k1]⟩

theorem rebAuthKey_now {p : PoolState} {signer k : Pubkey} :
    AdminCli.rebAuthKey p signer = .ok k ↔ (p.admin = signer ∨ p.rebalanceAuthority = signer) ∧ k = signer := by
  unfold AdminCli.rebAuthKey
  split
  · rename_i h; simp [h, eq_comm]
  · split
    · rename_i h1 h2; simp [h2, eq_comm]
    · rename_i h1 h2; simp [h1, h2]

theorem C85_cmd_setRebAuth {new : Pubkey} (h : AdminCli.setRebAuth cfg w₀ signer new = .ok ix) (hl : Lands cfg L w ix) :
    AdminCli.setRebAuth cfg w signer new = .ok ix := by
  simp only [AdminCli.setRebAuth, fetchPool, bind_ok, okOr_ok, rebAuthKey_now, pure_ok] at h ⊢
  obtain ⟨p₀, _, _, ⟨_, rfl⟩, rfl⟩ := h
  obtain ⟨env, tx, accs, w', hacc, hrun⟩ := hl
  simp only [SeenAs, List.forall₂_cons_left_iff, List.forall₂_nil_left_iff] at hacc
  obtain ⟨x1, _, e1, ⟨x2, _, e2, ⟨x3, _, e3, rfl, rfl⟩, rfl⟩, rfl⟩ := hacc
  rw [processInstruction_of_decode _ _ _ _ _ (C38_roundtrip Ix.setRebalanceAuthority trivial)] at hrun
  change processSetRebAuth cfg w [x1, x2, x3] = _ at hrun
  obtain ⟨a, p, ha, hp, _, _, _, k, _⟩ := processSetRebAuth_inv hrun
  simp only [SetRebAuthAccs.load, Except.ok.injEq] at ha
  have k1 := e1.key.symm.trans (congrArg (·.signer.key) ha)
  simp only [sgMeta] at k1
  rw [← k1] at k
  exact ⟨p, hp, _, ⟨k.imp Eq.symm Eq.symm, rfl⟩, rfl⟩

theorem C85_cmd_disablePool (h : AdminCli.disablePool cfg w₀ signer = .ok ix) (hl : Lands cfg L w ix) :
    AdminCli.disablePool cfg w signer = .ok ix := by
  simp only [AdminCli.disablePool, bind_ok, fetchAdminOrAuth_ok, pure_ok] at h ⊢
  obtain ⟨p₀, _, rfl⟩ := h
  obtain ⟨env, tx, accs, w', hacc, hrun⟩ := hl
  simp only [SeenAs, List.forall₂_cons_left_iff, List.forall₂_nil_left_iff] at hacc
  obtain ⟨x1, _, e1, ⟨x2, _, e2, ⟨x3, _, e3, rfl, rfl⟩, rfl⟩, rfl⟩ := hacc
  rw [processInstruction_of_decode _ _ _ _ _ (C38_roundtrip Ix.disablePool trivial)] at hrun
  change processDisablePool cfg w [x1, x2, x3] = _ at hrun
  obtain ⟨a, p, ha, hp, _, _, _, k, _⟩ := processDisablePool_inv hrun
  simp only [DisablePoolAccs.load, Except.ok.injEq] at ha
  have k1 := e1.key.symm.trans (congrArg (·.signer.key) ha)
  simp only [sgMeta] at k1
  rw [← k1] at k
  exact ⟨p, ⟨hp, k.imp Eq.symm id⟩, rfl⟩

theorem C85_cmd_removeAuth (hr : Reachable cfg L w) {refund removing : Pubkey}
    (h : AdminCli.removeAuth cfg w₀ signer refund removing = .ok ix) (hl : Lands cfg L w ix) :
    AdminCli.removeAuth cfg w signer refund removing = .ok ix := by
  simp only [AdminCli.removeAuth, bind_ok, fetchAdminOrAuth_ok, require_ok, exists_const] at h ⊢
  obtain ⟨p₀, _, _, hb⟩ := h
  obtain ⟨env, tx, accs, w', hacc, hrun⟩ := hl
  have hb' := C85_removeAuth hr hb hacc hrun
  have hb2 := hb'
  simp only [removeAuthByPubkey, resolveRemoveAuth, bind_ok, Prod.exists, okOr_ok, indexToU32_ok, pure_ok,
    Prod.mk.injEq] at hb
  obtain ⟨_, _, ⟨i, x, hf, i', ⟨hi, e'⟩, rfl, rfl⟩, rfl⟩ := hb
  subst e'
  simp only [RemoveAuthKeys.metas, SeenAs, List.forall₂_cons_left_iff, List.forall₂_nil_left_iff] at hacc
  obtain ⟨x1, _, e1, ⟨x2, _, e2, ⟨x3, _, e3, ⟨x4, _, e4, ⟨x5, _, e5, rfl, rfl⟩, rfl⟩, rfl⟩, rfl⟩, rfl⟩ := hacc
  have hw : (Ix.removeDisablePoolAuthority i').Wf := hi
  rw [processInstruction_of_decode _ _ _ _ _ (C38_roundtrip _ hw)] at hrun
  change processRemoveAuth _ _ _ _ = _ at hrun
  obtain ⟨a, p, hl, hp, ha, _, k, _⟩ := processRemoveAuth_inv hrun
  simp only [RemoveAuthAccs.load, Except.ok.injEq] at hl
  have k2 : signer = a.signer.key := e2.key.symm.trans (congrArg (·.signer.key) hl)
  have k3 : removing = a.authority.key := e3.key.symm.trans (congrArg (·.authority.key) hl)
  rw [← k2, ← k3] at k
  rw [← k3] at ha
  refine ⟨p, ⟨hp, ?_⟩, k.imp Eq.symm id, hb2⟩
  rcases k with k | k
  · exact .inl k.symm
  · exact .inr (k ▸ List.mem_of_getElem? ha)

theorem C85_cmd_lstInput (hr : Reachable cfg L w) {disable : Bool} {mint : Pubkey}
    (h : AdminCli.lstInput cfg w₀ disable signer mint = .ok ix) (hl : Lands cfg L w ix) :
    AdminCli.lstInput cfg w disable signer mint = .ok ix := by
  simp only [AdminCli.lstInput, bind_ok, fetchAdmin_ok] at h ⊢
  obtain ⟨p₀, ⟨_, rfl⟩, hb⟩ := h
  obtain ⟨env, tx, accs, w', hacc, hrun⟩ := hl
  obtain ⟨p, hp, ha, hb⟩ := C85_lstInput hr hb hacc hrun
  exact ⟨p, ⟨hp, ha.symm⟩, hb⟩

theorem C85_cmd_removeLst (hr : Reachable cfg L w) {refund mint : Pubkey}
    (h : AdminCli.removeLst cfg w₀ refund mint = .ok ix) (hl : Lands cfg L w ix) :
    AdminCli.removeLst cfg w refund mint = .ok ix := by
  simp only [AdminCli.removeLst, fetchPool, bind_ok, okOr_ok] at h ⊢
  obtain ⟨p₀, _, m, _, hb⟩ := h
  obtain ⟨env, tx, accs, w', hacc, hrun⟩ := hl
  obtain ⟨p, hp, ⟨m', hm', ho⟩, hb⟩ := C85_removeLst hr hb hacc hrun
  exact ⟨p, hp, m', hm', by rw [ho]; exact hb⟩

theorem C85_cmd_setCalc (hr : Reachable cfg L w) {mint calculator : Pubkey} {suffix : List Pubkey}
    (h : AdminCli.setCalc cfg w₀ signer mint calculator suffix = .ok ix) (hl : Lands cfg L w ix) :
    AdminCli.setCalc cfg w signer mint calculator suffix = .ok ix := by
  simp only [AdminCli.setCalc, bind_ok, okOr_ok, fetchAdmin_ok] at h ⊢
  obtain ⟨m, _, p₀, ⟨_, rfl⟩, hb⟩ := h
  obtain ⟨env, tx, accs, w', hacc, hrun⟩ := hl
  obtain ⟨p, hp, ha, ⟨m', hm', ho⟩, hb⟩ := C85_setCalc hr hb hacc hrun
  exact ⟨m', hm', p, ⟨hp, ha.symm⟩, by rw [ho]; exact hb⟩

theorem C85_cmd_addLst {payer mint calculator : Pubkey} (h : AdminCli.addLst cfg w₀ signer payer mint calculator = .ok ix)
    (hl : Lands cfg L w ix) : AdminCli.addLst cfg w signer payer mint calculator = .ok ix := by
  simp only [AdminCli.addLst, bind_ok, okOr_ok, fetchAdmin_ok, pure_ok] at h ⊢
  obtain ⟨m₀, _, p₀, ⟨_, rfl⟩, rfl⟩ := h
  obtain ⟨env, tx, accs, w', hacc, hrun⟩ := hl
  simp only [SeenAs, List.forall₂_cons_left_iff, List.forall₂_nil_left_iff] at hacc
  obtain ⟨x1, _, e1, ⟨x2, _, e2, ⟨x3, _, e3, ⟨x4, _, e4, ⟨x5, _, e5, ⟨x6, _, e6, ⟨x7, _, e7, ⟨x8, _, e8, ⟨x9, _, e9, ⟨x10, _, e10,
    ⟨x11, _, e11, ⟨x12, _, e12, rfl, rfl⟩, rfl⟩, rfl⟩, rfl⟩, rfl⟩, rfl⟩, rfl⟩, rfl⟩, rfl⟩, rfl⟩, rfl⟩, rfl⟩ := hacc
  rw [processInstruction_of_decode _ _ _ _ _ (C38_roundtrip Ix.addLst trivial)] at hrun
  change processAddLst cfg w [x1, x2, x3, x4, x5, x6, x7, x8, x9, x10, x11, x12] = _ at hrun
  obtain ⟨r⟩ := processAddLst_inv hrun
  have ha := r.load
  simp only [AddLstAccs.load, Except.ok.injEq] at ha
  have k1 := e1.key.symm.trans ((congrArg (·.admin.key) ha).trans r.admin)
  have k3 : mint = r.a.lstMint.key := e3.key.symm.trans (congrArg (·.lstMint.key) ha)
  have k12 : m₀.program = r.m.program := e12.key.symm.trans ((congrArg (·.lstTokenProgram.key) ha).trans r.tp)
  simp only [sgMeta] at k1
  exact ⟨r.m, k3 ▸ r.hm, r.p, ⟨r.pool, k1.symm⟩, by rw [k1, k12]⟩

end

/-! ### Examples

The list read at `st 5` is outdated at `st 7` (values have changed), but positions and calculators are not: the instructions built from it are
accepted. Had the entries been in the other order, or had LST 22 another calculator, they would be refused. -/

example : (Ex.st 5).ctl.lsts ≠ (Ex.st 7).ctl.lsts := by decide +kernel

example : Ex.accepted (Ex.st 7) (swapExactInByMint Ex.cfg (Ex.st 5).ctl.lsts Ex.clientSwap 10 3000) = some () ∧
    (swapExactInByMint Ex.cfg (Ex.st 5).ctl.lsts.reverse Ex.clientSwap 10 3000).toOption.isSome = true ∧
    Ex.accepted (Ex.st 7) (swapExactInByMint Ex.cfg (Ex.st 5).ctl.lsts.reverse Ex.clientSwap 10 3000) = none ∧
    Ex.accepted (Ex.st 7) (swapExactInByMint Ex.cfg ((Ex.st 5).ctl.lsts.map fun s => { s with solValueCalculator := 31 })
      Ex.clientSwap 10 3000) = none := by
  decide +kernel

example : Ex.accepted (Ex.st 7) (syncByMint Ex.cfg (Ex.st 5).ctl.lsts Ex.mB [roMeta 22, roMeta 70]) = some () ∧
    Ex.accepted (Ex.st 7) (syncByMint Ex.cfg (Ex.st 5).ctl.lsts.reverse Ex.mB [roMeta 22, roMeta 70]) = none := by
  decide +kernel

example : (do
      let p ← (Ex.st 5).ctl.pool
      Ex.accepted (Ex.st 7) (addLiquidityByMint Ex.cfg p (Ex.st 5).ctl.lsts Ex.clientLiq 1000 1)
      Ex.accepted (Ex.st 7) (removeLiquidityByMint Ex.cfg p (Ex.st 5).ctl.lsts Ex.clientLiq 1000 1)
      Ex.accepted (Ex.st 7) (lstInputByMint Ex.cfg p (Ex.st 5).ctl.lsts true 22)
      Ex.accepted (Ex.st 7) (setCalcByMint Ex.cfg p (Ex.st 5).ctl.lsts Ex.mB ⟨31, [roMeta 22, roMeta 70]⟩)
      Ex.accepted (Ex.st 7) (startRebalanceByMints Ex.cfg p (Ex.st 5).ctl.lsts 42 Ex.mB Ex.mA ⟨4000, 0, 1000000⟩
        [roMeta 22, roMeta 71] [roMeta 21, roMeta 70])) = some () := by
  decide +kernel

/-- Disabling the input of LST 22 with an index that is by now LST 21's is refused, as is a command given by a former admin. -/
example : (do
      let p ← (Ex.st 5).ctl.pool
      Ex.accepted (Ex.st 7) (lstInputByMint Ex.cfg p (Ex.st 5).ctl.lsts.reverse true 22)) = none ∧
    (do
      let p ← (Ex.st 5).ctl.pool
      Ex.accepted (Ex.st 7) (AdminCli.setAdmin Ex.cfg ((Ex.st 5).setPool { p with admin := 99 }) 99 98)) = none := by
  decide +kernel

end S
