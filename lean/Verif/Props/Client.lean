import Verif.Proofs.Client
/-
C42: the accounts the client library appends for calculators and pricing reach exactly the intended programs.

`Callee` is a program together with the accounts it is to be called with (interface prefix included, i.e. the LST mint, or
the two LST mints for swap pricing). The client appends them to the instruction's own accounts and tells the program how
many there are; the program splits them again.
-/
set_option autoImplicit false
namespace S

/-- The two environments give the same answer to every call of one of the calculators `cs` or pricing programs `ps` with
the accounts intended for it. Other calls may be answered differently. -/
structure AgreeOn {cfg : Cfg} (cs ps : List Callee) (env env' : Env cfg) : Prop where
  calcs : ∀ c ∈ cs, ∀ n w metas q, SeenAs c.metas metas →
    env.askCalc n w c.program metas q = env'.askCalc n w c.program metas q
  prices : ∀ c ∈ ps, ∀ n w metas q, SeenAs c.metas metas →
    env.askPrice n w c.program metas q = env'.askPrice n w c.program metas q

/-- The instruction `ix`, however its accounts' flags were escalated and whatever the state and transaction:
it calls no other calculator than `cs` and no other pricing program than `ps`, and these only with the accounts intended for
them (changing the answers to any other call changes nothing); and it cannot succeed without having called each of them. -/
def Delivers (cfg : Cfg) (ix : TopIx) (cs ps : List Callee) : Prop :=
  ∀ accs, SeenAs ix.accs accs → ∀ (L : RatioLib) (tx : TxInfo) (w : World),
    (∀ env env' : Env cfg, AgreeOn cs ps env env' →
      processInstruction cfg L env tx w ix.program accs ix.data = processInstruction cfg L env' tx w ix.program accs ix.data) ∧
    (∀ (env : Env cfg) w', processInstruction cfg L env tx w ix.program accs ix.data = .ok w' →
      (∀ c ∈ cs, ∃ n v metas q a, SeenAs c.metas metas ∧ env.askCalc n v c.program metas q = .ok a) ∧
      (∀ c ∈ ps, ∃ n v metas q a, SeenAs c.metas metas ∧ env.askPrice n v c.program metas q = .ok a))

theorem AgreeOn.calcSame {cfg : Cfg} {cs ps : List Callee} {env env' : Env cfg} (h : AgreeOn cs ps env env') {c : Callee}
    (hc : c ∈ cs) {x : CalcCpi} (hx : c.Is x.program x.metas) : CalcSame env env' x := by
  intro n w q
  unfold CalcCpi.ask
  rw [hx.1, h.calcs c hc n w x.metas q hx.2]

theorem AgreeOn.priceSame {cfg : Cfg} {cs ps : List Callee} {env env' : Env cfg} (h : AgreeOn cs ps env env') {c : Callee}
    (hc : c ∈ ps) {x : PriceCpi} (hx : c.Is x.program x.metas) : PriceSame env env' x := by
  intro n w q
  unfold PriceCpi.ask
  rw [hx.1, h.prices c hc n w x.metas q hx.2]

theorem processInstruction_of_decode {cfg : Cfg} (L : RatioLib) (env : Env cfg) (tx : TxInfo) (w : World) (accs : List Acc)
    {data : List UInt8} {ix : Ix} (h : decodeIx data = .ok ix) :
    processInstruction cfg L env tx w cfg.programId accs data = processIx cfg L env tx w accs ix := by
  simp only [processInstruction, h, require]
  rfl

/-! ### The accounts reach the intended calculators and pricing program -/

theorem swap_is {k : SwapKeys} {src dst pricing : Callee} {sr dr pr accs : List Acc} {ls : List LstState} {p : PoolState}
    {i j : Nat}
    (hs : src.metas = roMeta k.srcLstMint :: sr) (hd : dst.metas = roMeta k.dstLstMint :: dr)
    (hp : pricing.metas = roMeta k.srcLstMint :: roMeta k.dstLstMint :: pr)
    (h : SeenAs (k.metas ++ roMeta src.program :: src.metas.drop 1 ++ roMeta dst.program :: dst.metas.drop 1 ++
      roMeta pricing.program :: pricing.metas.drop 2) accs) {a : SwapAccs} {suf : List Acc} {c : SwapCpis}
    (hl : SwapAccs.load accs = .ok (a, suf))
    (hc : verifySwapCpis ls p a.srcLstMint.key a.dstLstMint.key suf src.metas.length dst.metas.length i j = .ok c) :
    src.Is c.src.program c.src.metas ∧ dst.Is c.dst.program c.dst.metas ∧
      pricing.Is c.pricing.program c.pricing.metas := by
  rw [List.append_assoc, List.append_assoc] at h
  obtain ⟨a', suf', hl', hk, hsuf⟩ := seen_swap h
  rw [hl] at hl'; injection hl' with e; injection e with e1 e2; subst e1; subst e2
  obtain ⟨x, y, rfl, hx, hy⟩ := hsuf.split
  obtain ⟨y, z, rfl, hy, hz⟩ := hy.split
  have k2 : a.srcLstMint.key = k.srcLstMint := by
    simp only [SwapKeys.metas, SwapAccs.list, SeenAs, List.forall₂_cons] at hk; exact hk.2.1.key
  have k3 : a.dstLstMint.key = k.dstLstMint := by
    simp only [SwapKeys.metas, SwapAccs.list, SeenAs, List.forall₂_cons] at hk; exact hk.2.2.1.key
  rw [← List.append_assoc, swap_split (tail_len hs hx) (tail_len hd hy), k2, k3] at hc
  simp only [bind_ok, pure_ok] at hc
  obtain ⟨s, h1, d, h2, q, h3, rfl⟩ := hc
  exact ⟨calc_is' hs hx h1, calc_is' hd hy h2, priceSwap_is hp hz h3⟩

theorem liq_is {k : LiqKeys} {calculator pricing : Callee} {cr pr accs : List Acc} {ls : List LstState} {p : PoolState}
    {i : Nat} (hs : calculator.metas = roMeta k.lstMint :: cr) (hp : pricing.metas = roMeta k.lstMint :: pr)
    (h : SeenAs (k.metas ++ roMeta calculator.program :: calculator.metas.drop 1 ++
      roMeta pricing.program :: pricing.metas.drop 1) accs) {a : LiqAccs} {suf : List Acc} {c : LpCpis}
    (hl : LiqAccs.load accs = .ok (a, suf))
    (hc : verifyLpCpis ls p a.lstMint.key suf calculator.metas.length i = .ok c) :
    calculator.Is c.lst.program c.lst.metas ∧ pricing.Is c.pricing.program c.pricing.metas := by
  rw [List.append_assoc] at h
  obtain ⟨a', suf', hl', hk, hsuf⟩ := seen_liq h
  rw [hl] at hl'; injection hl' with e; injection e with e1 e2; subst e1; subst e2
  obtain ⟨x, y, rfl, hx, hy⟩ := hsuf.split
  have k2 : a.lstMint.key = k.lstMint := by
    simp only [LiqKeys.metas, LiqAccs.list, SeenAs, List.forall₂_cons] at hk; exact hk.2.1.key
  rw [lp_split (tail_len hs hx), k2] at hc
  simp only [bind_ok, pure_ok] at hc
  obtain ⟨s, h1, q, h3, rfl⟩ := hc
  exact ⟨calc_is' hs hx h1, priceLp_is hp hy h3⟩

theorem start_is {k : StartKeys} {src dst : Callee} {sr dr accs : List Acc} {ls : List LstState}
    {i j : Nat} (hs : src.metas = roMeta k.srcLstMint :: sr) (hd : dst.metas = roMeta k.dstLstMint :: dr)
    (h : SeenAs (k.metas ++ roMeta src.program :: src.metas.drop 1 ++ roMeta dst.program :: dst.metas.drop 1) accs)
    {a : StartRebAccs} {suf : List Acc} {c : SrcDstCpis} (hl : StartRebAccs.load accs = .ok (a, suf))
    (hv : verifySrcDstCpis ls a.srcLstMint.key a.dstLstMint.key suf src.metas.length i j = .ok c) :
    src.Is c.src.program c.src.metas ∧ dst.Is c.dst.program c.dst.metas := by
  rw [List.append_assoc] at h
  obtain ⟨a', suf', hl', hk, hsuf⟩ := seen_start h
  rw [hl] at hl'; injection hl' with e; injection e with e1 e2; subst e1; subst e2
  obtain ⟨x, y, rfl, hx, hy⟩ := hsuf.split
  have k2 : a.srcLstMint.key = k.srcLstMint := by
    simp only [StartKeys.metas, StartRebAccs.list, SeenAs, List.forall₂_cons] at hk; exact hk.2.2.2.2.1.key
  have k3 : a.dstLstMint.key = k.dstLstMint := by
    simp only [StartKeys.metas, StartRebAccs.list, SeenAs, List.forall₂_cons] at hk; exact hk.2.2.2.2.2.1.key
  rw [srcDst_split (tail_len hs hx), k2, k3] at hv
  simp only [bind_ok, pure_ok] at hv
  obtain ⟨s, h1, d, h2, rfl⟩ := hv
  exact ⟨calc_is' hs hx h1, calc_is' hd hy h2⟩

/-- C42, SyncSolValue: for every account list of at most 255 accounts the client builds the instruction, its data decode to
the intended index, and the calculator is called with exactly the intended accounts. -/
theorem C42_sync (cfg : Cfg) (k : SyncKeys) (i : Nat) (calculator : Callee) {rest : List Acc}
    (hm : calculator.metas = roMeta k.lstMint :: rest) (h8 : calculator.metas.length ≤ 255) (hi : i < 2 ^ 32) :
    ∃ ix, syncIx cfg k i calculator = .ok ix ∧ ix.program = cfg.programId ∧
      decodeIx ix.data = .ok (.syncSolValue i) ∧ Delivers cfg ix [calculator] [] := by
  have hw : (Ix.syncSolValue i).Wf := hi
  refine ⟨⟨cfg.programId, k.metas ++ roMeta calculator.program :: calculator.metas.drop 1, (Ix.syncSolValue i).encode⟩,
    ?_, rfl, C38_roundtrip _ hw, ?_⟩
  · simp only [syncIx, bind_ok, Prod.exists, indexToU32_ok, extendOne_ok, pure_ok]
    exact ⟨_, ⟨hi, rfl⟩, _, _, ⟨h8, rfl, rfl⟩, rfl⟩
  · intro accs hacc L tx w
    obtain ⟨a', suf', hl', hk, hsuf⟩ := seen_sync hacc
    have k1 : a'.lstMint.key = k.lstMint := by
      simp only [SyncKeys.metas, SyncAccs.list, SeenAs, List.forall₂_cons] at hk; exact hk.1.key
    have key : ∀ c, verifyCalcCpi w.ctl.lsts a'.lstMint.key suf' i = .ok c →
        calculator.Is c.program c.metas := fun c hc => by rw [k1] at hc; exact calc_is' hm hsuf hc
    refine ⟨fun env env' hag => ?_, fun env w' h => ?_⟩
    · rw [processInstruction_of_decode _ _ _ _ _ (C38_roundtrip _ hw),
        processInstruction_of_decode _ _ _ _ _ (C38_roundtrip _ hw)]
      refine processSync_congr fun a suf c hl hv => ?_
      rw [hl'] at hl; injection hl with e; injection e with e1 e2; subst e1; subst e2
      simp only [verifySync, bind_ok] at hv
      obtain ⟨_, _, _, _, _, _, _, _, _, _, _, _, _, _, _, _, hv⟩ := hv
      exact hag.calcSame (by simp) (key c hv)
    · rw [processInstruction_of_decode _ _ _ _ _ (C38_roundtrip _ hw)] at h
      obtain ⟨r⟩ := processSync_inv h
      have e := r.load; rw [hl'] at e; injection e with e; injection e with e1 e2
      have hc := r.cpi; rw [← e1, ← e2] at hc
      have hk := key _ hc
      refine ⟨?_, by simp⟩
      simp only [List.mem_singleton]
      rintro c rfl
      exact ⟨_, _, _, _, _, hk.2, hk.1 ▸ r.run.ask⟩

/-- C42, SwapExactIn. -/
theorem C42_swap_exact_in (cfg : Cfg) (k : SwapKeys) (i j minAmountOut amount : Nat) (src dst pricing : Callee)
    {sr dr pr : List Acc} (hs : src.metas = roMeta k.srcLstMint :: sr) (hd : dst.metas = roMeta k.dstLstMint :: dr)
    (hp : pricing.metas = roMeta k.srcLstMint :: roMeta k.dstLstMint :: pr)
    (h8 : src.metas.length ≤ 255 ∧ dst.metas.length ≤ 255 ∧ pricing.metas.length ≤ 255)
    (hi : i < 2 ^ 32 ∧ j < 2 ^ 32) (hu : minAmountOut < 2 ^ 64 ∧ amount < 2 ^ 64) :
    ∃ ix, swapExactInIx cfg k i j minAmountOut amount src dst pricing = .ok ix ∧ ix.program = cfg.programId ∧
      decodeIx ix.data = .ok (.swapExactIn ⟨src.metas.length, dst.metas.length, i, j, minAmountOut, amount⟩) ∧
      Delivers cfg ix [src, dst] [pricing] := by
  have hw : (Ix.swapExactIn ⟨src.metas.length, dst.metas.length, i, j, minAmountOut, amount⟩).Wf :=
    ⟨Nat.lt_of_le_of_lt h8.1 (by decide), Nat.lt_of_le_of_lt h8.2.1 (by decide), hi.1, hi.2, hu.1, hu.2⟩
  refine ⟨⟨cfg.programId, k.metas ++ roMeta src.program :: src.metas.drop 1 ++ roMeta dst.program :: dst.metas.drop 1 ++
      roMeta pricing.program :: pricing.metas.drop 2, (Ix.swapExactIn ⟨src.metas.length, dst.metas.length, i, j, minAmountOut, amount⟩).encode⟩, ?_, rfl, C38_roundtrip _ hw, ?_⟩
  · simp only [swapExactInIx, bind_ok, Prod.exists, indexToU32_ok, extendSrcDst_ok, extendSwap_ok, pure_ok]
    refine ⟨_, ⟨hi.1, rfl⟩, _, ⟨hi.2, rfl⟩, _, _, _, ⟨h8.1, h8.2.1, rfl, rfl, rfl⟩, _, _, ⟨?_, ?_, rfl, rfl⟩, ?_⟩
    · rw [hp]; simp
    · have := h8.2.2; omega
    · rw [overwrite_same (encode_length_swapIn _ _)]
  · intro accs hacc L tx w
    refine ⟨fun env env' hag => ?_, fun env w' h => ?_⟩
    · rw [processInstruction_of_decode _ _ _ _ _ (C38_roundtrip _ hw),
        processInstruction_of_decode _ _ _ _ _ (C38_roundtrip _ hw)]
      refine processSwapExactIn_congr fun a suf c hl hv => ?_
      obtain ⟨_, _, _, _, _, hver⟩ := verifySwap_inv hl hv
      obtain ⟨h1, h2, h3⟩ := swap_is hs hd hp hacc hl hver.cpis
      exact ⟨hag.calcSame (by simp) h1, hag.calcSame (by simp) h2, hag.priceSame (by simp) h3⟩
    · rw [processInstruction_of_decode _ _ _ _ _ (C38_roundtrip _ hw)] at h
      obtain ⟨_, ⟨r⟩⟩ := processSwapExactIn_inv h
      obtain ⟨h1, h2, h3⟩ := swap_is hs hd hp hacc r.ver.load r.ver.cpis
      refine ⟨?_, ?_⟩
      · simp only [List.mem_cons, List.not_mem_nil, or_false]
        rintro x (rfl | rfl)
        · exact ⟨_, _, _, _, _, h1.2, h1.1 ▸ r.ask2⟩
        · exact ⟨_, _, _, _, _, h2.2, h2.1 ▸ r.ask4⟩
      · simp only [List.mem_singleton]
        rintro x rfl
        exact ⟨_, _, _, _, _, h3.2, h3.1 ▸ r.ask3⟩

/-- C42, SwapExactOut. -/
theorem C42_swap_exact_out (cfg : Cfg) (k : SwapKeys) (i j maxAmountIn amount : Nat) (src dst pricing : Callee)
    {sr dr pr : List Acc} (hs : src.metas = roMeta k.srcLstMint :: sr) (hd : dst.metas = roMeta k.dstLstMint :: dr)
    (hp : pricing.metas = roMeta k.srcLstMint :: roMeta k.dstLstMint :: pr)
    (h8 : src.metas.length ≤ 255 ∧ dst.metas.length ≤ 255 ∧ pricing.metas.length ≤ 255)
    (hi : i < 2 ^ 32 ∧ j < 2 ^ 32) (hu : maxAmountIn < 2 ^ 64 ∧ amount < 2 ^ 64) :
    ∃ ix, swapExactOutIx cfg k i j maxAmountIn amount src dst pricing = .ok ix ∧ ix.program = cfg.programId ∧
      decodeIx ix.data = .ok (.swapExactOut ⟨src.metas.length, dst.metas.length, i, j, maxAmountIn, amount⟩) ∧
      Delivers cfg ix [src, dst] [pricing] := by
  have hw : (Ix.swapExactOut ⟨src.metas.length, dst.metas.length, i, j, maxAmountIn, amount⟩).Wf :=
    ⟨Nat.lt_of_le_of_lt h8.1 (by decide), Nat.lt_of_le_of_lt h8.2.1 (by decide), hi.1, hi.2, hu.1, hu.2⟩
  refine ⟨⟨cfg.programId, k.metas ++ roMeta src.program :: src.metas.drop 1 ++ roMeta dst.program :: dst.metas.drop 1 ++
      roMeta pricing.program :: pricing.metas.drop 2, (Ix.swapExactOut ⟨src.metas.length, dst.metas.length, i, j, maxAmountIn, amount⟩).encode⟩, ?_, rfl, C38_roundtrip _ hw, ?_⟩
  · simp only [swapExactOutIx, bind_ok, Prod.exists, indexToU32_ok, extendSrcDst_ok, extendSwap_ok, pure_ok]
    refine ⟨_, ⟨hi.1, rfl⟩, _, ⟨hi.2, rfl⟩, _, _, _, ⟨h8.1, h8.2.1, rfl, rfl, rfl⟩, _, _, ⟨?_, ?_, rfl, rfl⟩, ?_⟩
    · rw [hp]; simp
    · have := h8.2.2; omega
    · rw [overwrite_same (encode_length_swapOut _ _)]
  · intro accs hacc L tx w
    refine ⟨fun env env' hag => ?_, fun env w' h => ?_⟩
    · rw [processInstruction_of_decode _ _ _ _ _ (C38_roundtrip _ hw),
        processInstruction_of_decode _ _ _ _ _ (C38_roundtrip _ hw)]
      refine processSwapExactOut_congr fun a suf c hl hv => ?_
      obtain ⟨_, _, _, _, _, hver⟩ := verifySwap_inv hl hv
      obtain ⟨h1, h2, h3⟩ := swap_is hs hd hp hacc hl hver.cpis
      exact ⟨hag.calcSame (by simp) h1, hag.calcSame (by simp) h2, hag.priceSame (by simp) h3⟩
    · rw [processInstruction_of_decode _ _ _ _ _ (C38_roundtrip _ hw)] at h
      obtain ⟨_, ⟨r⟩⟩ := processSwapExactOut_inv h
      obtain ⟨h1, h2, h3⟩ := swap_is hs hd hp hacc r.ver.load r.ver.cpis
      refine ⟨?_, ?_⟩
      · simp only [List.mem_cons, List.not_mem_nil, or_false]
        rintro x (rfl | rfl)
        · exact ⟨_, _, _, _, _, h1.2, h1.1 ▸ r.ask4⟩
        · exact ⟨_, _, _, _, _, h2.2, h2.1 ▸ r.ask2⟩
      · simp only [List.mem_singleton]
        rintro x rfl
        exact ⟨_, _, _, _, _, h3.2, h3.1 ▸ r.ask3⟩

/-- C42, AddLiquidity. -/
theorem C42_add_liquidity (cfg : Cfg) (k : LiqKeys) (i lstAmount minLpOut : Nat) (calculator pricing : Callee)
    {cr pr : List Acc} (hs : calculator.metas = roMeta k.lstMint :: cr) (hp : pricing.metas = roMeta k.lstMint :: pr)
    (h8 : calculator.metas.length ≤ 255 ∧ pricing.metas.length ≤ 255)
    (hi : i < 2 ^ 32) (hu : lstAmount < 2 ^ 64 ∧ minLpOut < 2 ^ 64) :
    ∃ ix, addLiquidityIx cfg k i lstAmount minLpOut calculator pricing = .ok ix ∧ ix.program = cfg.programId ∧
      decodeIx ix.data = .ok (.addLiquidity ⟨calculator.metas.length, i, lstAmount, minLpOut⟩) ∧
      Delivers cfg ix [calculator] [pricing] := by
  have hw : (Ix.addLiquidity ⟨calculator.metas.length, i, lstAmount, minLpOut⟩).Wf :=
    ⟨Nat.lt_of_le_of_lt h8.1 (by decide), hi, hu.1, hu.2⟩
  refine ⟨⟨cfg.programId, k.metas ++ roMeta calculator.program :: calculator.metas.drop 1 ++
      roMeta pricing.program :: pricing.metas.drop 1, (Ix.addLiquidity ⟨calculator.metas.length, i, lstAmount, minLpOut⟩).encode⟩, ?_, rfl, C38_roundtrip _ hw, ?_⟩
  · simp only [addLiquidityIx, bind_ok, Prod.exists, indexToU32_ok, extendOne_ok, pure_ok]
    refine ⟨_, ⟨hi, rfl⟩, _, _, ⟨h8.1, rfl, rfl⟩, _, _, ⟨h8.2, rfl, rfl⟩, ?_⟩
    rw [overwrite_same (encode_length_add _ _)]
  · intro accs hacc L tx w
    refine ⟨fun env env' hag => ?_, fun env w' h => ?_⟩
    · rw [processInstruction_of_decode _ _ _ _ _ (C38_roundtrip _ hw),
        processInstruction_of_decode _ _ _ _ _ (C38_roundtrip _ hw)]
      refine processAddLiquidity_congr fun a suf c hl hv => ?_
      obtain ⟨_, _, _, hver⟩ := verifyLiq_inv hl hv
      obtain ⟨h1, h3⟩ := liq_is hs hp hacc hl hver.cpis
      exact ⟨hag.calcSame (by simp) h1, hag.priceSame (by simp) h3⟩
    · rw [processInstruction_of_decode _ _ _ _ _ (C38_roundtrip _ hw)] at h
      obtain ⟨r⟩ := processAddLiquidity_inv h
      obtain ⟨h1, h3⟩ := liq_is hs hp hacc r.ver.load r.ver.cpis
      refine ⟨?_, ?_⟩
      · simp only [List.mem_singleton]
        rintro x rfl
        exact ⟨_, _, _, _, _, h1.2, h1.1 ▸ r.ask1⟩
      · simp only [List.mem_singleton]
        rintro x rfl
        exact ⟨_, _, _, _, _, h3.2, h3.1 ▸ r.ask2⟩

/-- C42, RemoveLiquidity. -/
theorem C42_remove_liquidity (cfg : Cfg) (k : LiqKeys) (i lpTokenAmount minLstOut : Nat) (calculator pricing : Callee)
    {cr pr : List Acc} (hs : calculator.metas = roMeta k.lstMint :: cr) (hp : pricing.metas = roMeta k.lstMint :: pr)
    (h8 : calculator.metas.length ≤ 255 ∧ pricing.metas.length ≤ 255)
    (hi : i < 2 ^ 32) (hu : lpTokenAmount < 2 ^ 64 ∧ minLstOut < 2 ^ 64) :
    ∃ ix, removeLiquidityIx cfg k i lpTokenAmount minLstOut calculator pricing = .ok ix ∧ ix.program = cfg.programId ∧
      decodeIx ix.data = .ok (.removeLiquidity ⟨calculator.metas.length, i, lpTokenAmount, minLstOut⟩) ∧
      Delivers cfg ix [calculator] [pricing] := by
  have hw : (Ix.removeLiquidity ⟨calculator.metas.length, i, lpTokenAmount, minLstOut⟩).Wf :=
    ⟨Nat.lt_of_le_of_lt h8.1 (by decide), hi, hu.1, hu.2⟩
  refine ⟨⟨cfg.programId, k.metas ++ roMeta calculator.program :: calculator.metas.drop 1 ++
      roMeta pricing.program :: pricing.metas.drop 1, (Ix.removeLiquidity ⟨calculator.metas.length, i, lpTokenAmount, minLstOut⟩).encode⟩, ?_, rfl, C38_roundtrip _ hw, ?_⟩
  · simp only [removeLiquidityIx, bind_ok, Prod.exists, indexToU32_ok, extendOne_ok, pure_ok]
    refine ⟨_, ⟨hi, rfl⟩, _, _, ⟨h8.1, rfl, rfl⟩, _, _, ⟨h8.2, rfl, rfl⟩, ?_⟩
    rw [overwrite_same (encode_length_remove _ _)]
  · intro accs hacc L tx w
    refine ⟨fun env env' hag => ?_, fun env w' h => ?_⟩
    · rw [processInstruction_of_decode _ _ _ _ _ (C38_roundtrip _ hw),
        processInstruction_of_decode _ _ _ _ _ (C38_roundtrip _ hw)]
      refine processRemoveLiquidity_congr fun a suf c hl hv => ?_
      obtain ⟨_, _, _, hver⟩ := verifyLiq_inv hl hv
      obtain ⟨h1, h3⟩ := liq_is hs hp hacc hl hver.cpis
      exact ⟨hag.calcSame (by simp) h1, hag.priceSame (by simp) h3⟩
    · rw [processInstruction_of_decode _ _ _ _ _ (C38_roundtrip _ hw)] at h
      obtain ⟨r⟩ := processRemoveLiquidity_inv h
      obtain ⟨h1, h3⟩ := liq_is hs hp hacc r.ver.load r.ver.cpis
      refine ⟨?_, ?_⟩
      · simp only [List.mem_singleton]
        rintro x rfl
        exact ⟨_, _, _, _, _, h1.2, h1.1 ▸ r.sync0.ask⟩
      · simp only [List.mem_singleton]
        rintro x rfl
        exact ⟨_, _, _, _, _, h3.2, h3.1 ▸ r.ask1⟩

/-- C42, SetSolValueCalculator: the new calculator is the intended one and is called with the intended accounts. -/
theorem C42_set_sol_value_calculator (cfg : Cfg) (k : SetCalcKeys) (i : Nat) (calculator : Callee) {rest : List Acc}
    (hm : calculator.metas = roMeta k.lstMint :: rest) (h8 : calculator.metas.length ≤ 255) (hi : i < 2 ^ 32) :
    ∃ ix, setCalcIx cfg k i calculator = .ok ix ∧ ix.program = cfg.programId ∧
      decodeIx ix.data = .ok (.setSolValueCalculator i) ∧ Delivers cfg ix [calculator] [] := by
  have hw : (Ix.setSolValueCalculator i).Wf := hi
  refine ⟨⟨cfg.programId, k.metas ++ roMeta calculator.program :: calculator.metas.drop 1, (Ix.setSolValueCalculator i).encode⟩, ?_, rfl,
    C38_roundtrip _ hw, ?_⟩
  · simp only [setCalcIx, bind_ok, Prod.exists, indexToU32_ok, extendOne_ok, pure_ok]
    exact ⟨_, ⟨hi, rfl⟩, _, _, ⟨h8, rfl, rfl⟩, rfl⟩
  · intro accs hacc L tx w
    obtain ⟨a', suf', hl', hk, hsuf⟩ := seen_setCalc hacc
    have k1 : a'.lstMint.key = k.lstMint := by
      simp only [SetCalcKeys.metas, SetCalcAccs.list, SeenAs, List.forall₂_cons] at hk; exact hk.2.1.key
    have key : ∀ c, CalcCpi.ofSuffix a'.lstMint.key suf' = .ok c →
        calculator.Is c.program c.metas := fun c hc => by rw [k1] at hc; exact calc_is hm hsuf hc
    refine ⟨fun env env' hag => ?_, fun env w' h => ?_⟩
    · rw [processInstruction_of_decode _ _ _ _ _ (C38_roundtrip _ hw),
        processInstruction_of_decode _ _ _ _ _ (C38_roundtrip _ hw)]
      refine processSetCalc_congr fun a suf c hl hv => ?_
      rw [hl'] at hl; injection hl with e; injection e with e1 e2; subst e1; subst e2
      exact hag.calcSame (by simp) (key c hv)
    · rw [processInstruction_of_decode _ _ _ _ _ (C38_roundtrip _ hw)] at h
      obtain ⟨r⟩ := processSetSolValueCalculator_inv h
      have e := r.load; rw [hl'] at e; injection e with e; injection e with e1 e2
      have hc := r.cpi; rw [← e1, ← e2] at hc
      have hk := key _ hc
      refine ⟨?_, by simp⟩
      simp only [List.mem_singleton]
      rintro c rfl
      exact ⟨_, _, _, _, _, hk.2, hk.1 ▸ r.run.ask⟩

/-- C42, StartRebalance. -/
theorem C42_start_rebalance (cfg : Cfg) (k : StartKeys) (i j : Nat) (amts : StartAmts) (src dst : Callee)
    {sr dr : List Acc} (hs : src.metas = roMeta k.srcLstMint :: sr) (hd : dst.metas = roMeta k.dstLstMint :: dr)
    (h8 : src.metas.length ≤ 255 ∧ dst.metas.length ≤ 255) (hi : i < 2 ^ 32 ∧ j < 2 ^ 32)
    (hu : amts.amount < 2 ^ 64 ∧ amts.minStartingSrcLst < 2 ^ 64 ∧ amts.maxStartingDstLst < 2 ^ 64) :
    ∃ ix, startRebalanceIx cfg k i j amts src dst = .ok ix ∧ ix.program = cfg.programId ∧
      decodeIx ix.data = .ok (.startRebalance
        ⟨src.metas.length, i, j, amts.amount, amts.minStartingSrcLst, amts.maxStartingDstLst⟩) ∧
      Delivers cfg ix [src, dst] [] := by
  have hw : (Ix.startRebalance
      ⟨src.metas.length, i, j, amts.amount, amts.minStartingSrcLst, amts.maxStartingDstLst⟩).Wf :=
    ⟨Nat.lt_of_le_of_lt h8.1 (by decide), hi.1, hi.2, hu.1, hu.2.1, hu.2.2⟩
  refine ⟨⟨cfg.programId, k.metas ++ roMeta src.program :: src.metas.drop 1 ++ roMeta dst.program :: dst.metas.drop 1,
    (Ix.startRebalance ⟨src.metas.length, i, j, amts.amount, amts.minStartingSrcLst, amts.maxStartingDstLst⟩).encode⟩,
    ?_, rfl, C38_roundtrip _ hw, ?_⟩
  · simp only [startRebalanceIx, bind_ok, Prod.exists, indexToU32_ok, extendSrcDst_ok, pure_ok]
    refine ⟨_, ⟨hi.1, rfl⟩, _, ⟨hi.2, rfl⟩, _, _, _, ⟨h8.1, h8.2, rfl, rfl, rfl⟩, ?_⟩
    rw [overwrite_same (encode_length_start _ _)]
  · intro accs hacc L tx w
    refine ⟨fun env env' hag => ?_, fun env w' h => ?_⟩
    · rw [processInstruction_of_decode _ _ _ _ _ (C38_roundtrip _ hw),
        processInstruction_of_decode _ _ _ _ _ (C38_roundtrip _ hw)]
      refine processStartRebalance_congr fun a suf c hl hv => ?_
      simp only [verifyStartRebalance, bind_ok, require_ok, exists_const, checkKeys_ok, checkWritable_ok, checkSigner_ok,
        verifyActive_ok, verifyInputEnabled_ok, pure_ok] at hv
      obtain ⟨_, _, _, _, _, _, _, _, _, _, _, _, _, _, _, _, _, _, _, _, _, _, _, _, _, _, _, _, hc, _, _, rfl⟩ := hv
      obtain ⟨h1, h2⟩ := start_is hs hd hacc hl hc
      exact ⟨hag.calcSame (by simp) h1, hag.calcSame (by simp) h2⟩
    · rw [processInstruction_of_decode _ _ _ _ _ (C38_roundtrip _ hw)] at h
      obtain ⟨r⟩ := processStartRebalance_inv h
      obtain ⟨h1, h2⟩ := start_is hs hd hacc r.load r.cpis
      refine ⟨?_, by simp⟩
      simp only [List.mem_cons, List.not_mem_nil, or_false]
      rintro x (rfl | rfl)
      · exact ⟨_, _, _, _, _, h1.2, h1.1 ▸ r.sync0.ask⟩
      · exact ⟨_, _, _, _, _, h2.2, h2.1 ▸ r.sync1.ask⟩

/-- C42, EndRebalance. -/
theorem C42_end_rebalance (cfg : Cfg) (k : EndKeys) (dst : Callee) {rest : List Acc}
    (hm : dst.metas = roMeta k.dstLstMint :: rest) (h8 : dst.metas.length ≤ 255) :
    ∃ ix, endRebalanceIx cfg k dst = .ok ix ∧ ix.program = cfg.programId ∧
      decodeIx ix.data = .ok .endRebalance ∧ Delivers cfg ix [dst] [] := by
  have hw : Ix.endRebalance.Wf := trivial
  refine ⟨⟨cfg.programId, k.metas ++ roMeta dst.program :: dst.metas.drop 1, (Ix.endRebalance).encode⟩, ?_, rfl,
    C38_roundtrip _ hw, ?_⟩
  · simp only [endRebalanceIx, bind_ok, Prod.exists, extendOne_ok, pure_ok]
    exact ⟨_, _, ⟨h8, rfl, rfl⟩, rfl⟩
  · intro accs hacc L tx w
    obtain ⟨a', suf', hl', hk, hsuf⟩ := seen_end hacc
    have k1 : a'.dstLstMint.key = k.dstLstMint := by
      simp only [EndKeys.metas, EndRebAccs.list, SeenAs, List.forall₂_cons] at hk; exact hk.2.2.2.2.1.key
    have key : ∀ i c, verifyCalcCpi w.ctl.lsts a'.dstLstMint.key suf' i = .ok c →
        dst.Is c.program c.metas := fun i c hc => by rw [k1] at hc; exact calc_is' hm hsuf hc
    refine ⟨fun env env' hag => ?_, fun env w' h => ?_⟩
    · rw [processInstruction_of_decode _ _ _ _ _ (C38_roundtrip _ hw),
        processInstruction_of_decode _ _ _ _ _ (C38_roundtrip _ hw)]
      refine processEndRebalance_congr fun a suf i c hl hv => ?_
      rw [hl'] at hl; injection hl with e; injection e with e1 e2; subst e1; subst e2
      exact hag.calcSame (by simp) (key i c hv)
    · rw [processInstruction_of_decode _ _ _ _ _ (C38_roundtrip _ hw)] at h
      obtain ⟨r⟩ := processEndRebalance_inv h
      have e := r.load; rw [hl'] at e; injection e with e; injection e with e1 e2
      have hc := r.cpi; rw [← e1, ← e2] at hc
      have hk := key _ _ hc
      refine ⟨?_, by simp⟩
      simp only [List.mem_singleton]
      rintro c rfl
      exact ⟨_, _, _, _, _, hk.2, hk.1 ▸ r.sync0.ask⟩

/-- C42: the EndRebalance instruction derived from a StartRebalance instruction is the one built directly for the same
rebalance and the destination's calculator. -/
theorem C42_end_from_start {cfg : Cfg} {k : StartKeys} {i j : Nat} {amts : StartAmts} {src dst : Callee} {ix : TopIx}
    (hn : src.metas ≠ [])
    (hu : amts.amount < 2 ^ 64 ∧ amts.minStartingSrcLst < 2 ^ 64 ∧ amts.maxStartingDstLst < 2 ^ 64)
    (h : startRebalanceIx cfg k i j amts src dst = .ok ix) :
    ∃ ix', endFromStartIx ix = .ok ix' ∧ endRebalanceIx cfg k.toEnd dst = .ok ix' := by
  simp only [startRebalanceIx, bind_ok, Prod.exists, indexToU32_ok, extendSrcDst_ok, pure_ok] at h
  obtain ⟨i', ⟨hi, hi'⟩, j', ⟨hj, hj'⟩, _, _, _, ⟨h1, h2, rfl, rfl, rfl⟩, rfl⟩ := h
  subst hi' hj'
  have hw : (Ix.startRebalance
      ⟨src.metas.length, i', j', amts.amount, amts.minStartingSrcLst, amts.maxStartingDstLst⟩).Wf :=
    ⟨Nat.lt_of_le_of_lt h1 (by decide), hi, hj, hu.1, hu.2.1, hu.2.2⟩
  obtain ⟨x, xs, hx⟩ := List.exists_cons_of_ne_nil hn
  rw [overwrite_same (encode_length_start _ _)]
  have hlen : (k.metas ++ roMeta src.program :: src.metas.drop 1).length = 12 + src.metas.length := by
    rw [hx]; simp [StartKeys.metas]; omega
  refine ⟨⟨cfg.programId, k.toEnd.metas ++ roMeta dst.program :: dst.metas.drop 1, Ix.endRebalance.encode⟩, ?_, ?_⟩
  · simp only [endFromStartIx, C38_roundtrip _ hw]
    show (do
      require (12 + src.metas.length ≤ _) .notEnoughAccountKeys
      let k ← StartKeys.ofAccs _
      pure _) = _
    simp only [bind_ok, require_ok, exists_const, pure_ok]
    refine ⟨?_, k, rfl, ?_⟩
    · rw [List.length_append, hlen]; omega
    · rw [← hlen, List.drop_left]
  · simp only [endRebalanceIx, bind_ok, Prod.exists, extendOne_ok, pure_ok]
    exact ⟨_, _, ⟨h2, rfl, rfl⟩, rfl⟩

/-- The hypotheses allow any account list up to the limit. -/
example (cfg : Cfg) (k : SwapKeys) (l l' : List Acc) (h : l.length = 254) (h' : l'.length = 39) :
    ∃ ix, swapExactInIx cfg k 3 7 10 1000 ⟨31, roMeta k.srcLstMint :: l⟩ ⟨32, roMeta k.dstLstMint :: l'⟩
      ⟨33, [roMeta k.srcLstMint, roMeta k.dstLstMint, wrMeta 5]⟩ = .ok ix ∧
    decodeIx ix.data = .ok (.swapExactIn ⟨255, 40, 3, 7, 10, 1000⟩) := by
  obtain ⟨ix, h1, _, h2, _⟩ := C42_swap_exact_in cfg k 3 7 10 1000 ⟨31, roMeta k.srcLstMint :: l⟩
    ⟨32, roMeta k.dstLstMint :: l'⟩ ⟨33, [roMeta k.srcLstMint, roMeta k.dstLstMint, wrMeta 5]⟩ rfl rfl rfl
    ⟨by simp [h], by simp [h'], by simp⟩ (by decide) (by decide)
  refine ⟨ix, h1, ?_⟩
  simpa [h, h'] using h2

/-- With more than 255 accounts the client refuses to build the instruction. -/
example (cfg : Cfg) (k : SyncKeys) (l : List Acc) (h : l.length = 255) :
    syncIx cfg k 0 ⟨31, roMeta k.lstMint :: l⟩ = .error .math := by
  simp [syncIx, extendOne, countU8, indexToU32, require, h]; rfl

end S
