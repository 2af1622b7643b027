import Verif.Props.Rates
/-
C12: protocol fees are bounded by the fee charged. C37: trading there and back never pays.
-/
set_option autoImplicit false
namespace S

/-! ### C12 -/

/-- The protocol's part, at `bps` basis points and rounded up, of the `charged` lamports a trader paid in fees. -/
def protocolShare (charged bps : Nat) : Nat := cdiv (charged * bps) 10000

theorem protocolShare_le {charged bps : Nat} (h : bps ≤ 10000) : protocolShare charged bps ≤ charged := share_le h

theorem protocolShare_zero {charged bps : Nat} (h : charged = 0 ∨ bps = 0) : protocolShare charged bps = 0 := by
  rcases h with rfl | rfl <;> simp [protocolShare, cdiv]

/-- What C12 claims of the fee `fee` (in LST) of a trade in which `charged` lamports were charged and `amount` of the LST was exchanged at
`value` lamports: at the rate of the trade it is worth at most the protocol's share, which is at most what was charged; it is zero
if nothing was charged or the protocol's rate is zero. -/
structure FeeBound (charged bps amount value fee : Nat) : Prop where
  worth : fee * value ≤ protocolShare charged bps * amount
  share : protocolShare charged bps ≤ charged
  zero : charged = 0 ∨ bps = 0 → fee = 0

theorem feeBound {charged bps amount value fee : Nat} (hb : bps ≤ 10000) (hf : fee = protocolShare charged bps * amount / value) :
    FeeBound charged bps amount value fee where
  worth := by rw [hf]; exact Nat.div_mul_le_self _ _
  share := protocolShare_le hb
  zero h := by rw [hf, protocolShare_zero h]; simp

/-- C12 for SwapExactIn: the fee in destination LST is worth at most the protocol's share of `inSol - outSol`, the lamports charged, at the
trade's own rate and also by the calculator of the destination LST. -/
theorem C12_swapExactIn {cfg : Cfg} {L : RatioLib} {env : Env cfg} {tx : TxInfo} {w w' : World} {accs : List Acc}
    {args : SwapExactInArgs} {c : AnyCalc} (hr : Reachable cfg L w) (hq : env.Quiet)
    (hc : ValuedBy L env w args.dstLstIndex c) (hu : c.Usable)
    (h : processIx cfg L env tx w accs (.swapExactIn args) = .ok w') :
    ∃ out fee p src dst signer srcAcc dstAcc feeAcc srcRes dstRes inSol outSol,
      SwapMoves cfg w w' accs args.srcLstIndex args.dstLstIndex args.amount out fee p src dst signer srcAcc dstAcc feeAcc
        srcRes dstRes ∧
      CalcAnswer env 2 w.led src.solValueCalculator src.mint (.lstToSol args.amount) inSol ∧
      PriceAnswer env 3 w.led p.pricingProgram [src.mint, dst.mint] (.exactIn args.amount inSol.min) outSol ∧
      FeeBound (inSol.min - outSol) p.tradingProtocolFeeBps out outSol fee ∧
      (∀ x, (c.calculator L).lstToSol fee = .ok x → x.min ≤ protocolShare (inSol.min - outSol) p.tradingProtocolFeeBps) := by
  obtain ⟨out, fee, p, src, dst, signer, srcAcc, dstAcc, feeAcc, srcRes, dstRes, inSol, outSol, rOut, hm, a2, a3, a4, ho, _, hone, _, _,
    hf⟩ := C04_swapExactIn hq h
  obtain ⟨_, ms4, _, hms4, q4⟩ := a4
  have c4 := (hc dst hm.dstEntry _ _ _ _ _ hms4).2 _ q4
  have e4 : out = c.rmin outSol := by rw [ho, (AnyCalc.is L hu).solToLst c4]
  have hne : outSol ≠ 0 := by rintro rfl; rw [c.rmin_zero] at e4; exact hone e4
  have hb := feeBound (hr.inv.ctl.fees p hm.pool).1 (hf hne)
  refine ⟨out, fee, p, src, dst, signer, srcAcc, dstAcc, feeAcc, srcRes, dstRes, inSol, outSol, hm, a2, a3, hb, ?_⟩
  intro x hx
  rw [(AnyCalc.is L hu).lstToSol hx]
  have hw := hb.worth
  rw [e4] at hw
  exact AnyCalc.fee_value hu (AnyCalc.answers_of (.inr c4)) hne hw

/-- C12 for SwapExactOut. -/
theorem C12_swapExactOut {cfg : Cfg} {L : RatioLib} {env : Env cfg} {tx : TxInfo} {w w' : World} {accs : List Acc}
    {args : SwapExactOutArgs} (hr : Reachable cfg L w) (hq : env.Quiet)
    (h : processIx cfg L env tx w accs (.swapExactOut args) = .ok w') :
    ∃ srcIn fee p src dst signer srcAcc dstAcc feeAcc srcRes dstRes outSol inSol,
      SwapMoves cfg w w' accs args.srcLstIndex args.dstLstIndex srcIn args.amount fee p src dst signer srcAcc dstAcc feeAcc
        srcRes dstRes ∧
      CalcAnswer env 2 w.led dst.solValueCalculator dst.mint (.lstToSol args.amount) outSol ∧
      PriceAnswer env 3 w.led p.pricingProgram [src.mint, dst.mint] (.exactOut args.amount outSol.max) inSol ∧
      FeeBound (inSol - outSol.max) p.tradingProtocolFeeBps args.amount outSol.max fee := by
  obtain ⟨srcIn, fee, p, src, dst, signer, srcAcc, dstAcc, feeAcc, srcRes, dstRes, outSol, inSol, rIn, hm, a2, a3, a4, hi, _, _, _, hne,
    hf⟩ := C05_swapExactOut hq h
  exact ⟨srcIn, fee, p, src, dst, signer, srcAcc, dstAcc, feeAcc, srcRes, dstRes, outSol, inSol, hm, a2, a3,
    feeBound (hr.inv.ctl.fees p hm.pool).1 (hf hne)⟩

/-- C12 for AddLiquidity: also the fee is less than the deposit. (A deposit worth nothing is possible only when no LP tokens exist.) -/
theorem C12_addLiquidity {cfg : Cfg} {L : RatioLib} {env : Env cfg} {tx : TxInfo} {w w' : World} {accs : List Acc}
    {args : AddLiquidityArgs} (hr : Reachable cfg L w) (hq : env.Quiet)
    (h : processIx cfg L env tx w accs (.addLiquidity args) = .ok w') :
    ∃ p s signer userLst userLp feeAcc res v vAfter toRes toFee lp,
      LiqParties cfg w accs args.lstIndex p s signer userLst userLp feeAcc res ∧
      CalcAnswer env 1 w.led s.solValueCalculator s.mint (.lstToSol args.lstAmount) v ∧
      PriceAnswer env 2 w.led p.pricingProgram [s.mint] (.lpTokensToMint args.lstAmount v.min) vAfter ∧
      (∀ k, bal w'.led k + only userLst.key args.lstAmount k =
        bal w.led k + only res.key toRes k + only feeAcc.key toFee k + only userLp.key lp k) ∧
      toFee < args.lstAmount ∧
      (v.min ≠ 0 → FeeBound (v.min - vAfter) p.lpProtocolFeeBps args.lstAmount v.min toFee) ∧
      (v.min = 0 → lpSupply w = 0) := by
  obtain ⟨p, s, signer, userLst, userLp, feeAcc, res, m, r0, v, u, T, toRes, toFee, lp, hpar, hm, _, _, a0, hT,
    a1, a2, hle, hmint, hlpne, hmin, hfee, hsum, hne, hb, hmints, _⟩ := C06_addLiquidity hq h
  refine ⟨p, s, signer, userLst, userLp, feeAcc, res, v, u, toRes, toFee, lp, hpar, a1, a2, hb, by omega,
    fun hv => feeBound (hr.inv.ctl.fees p hpar.pool).2 (hfee hv), fun hv => ?_⟩
  have hu0 : u = 0 := by omega
  have es : lpSupply w = m.supply := by
    rw [lpSupply, hpar.pool]; show supplyOf w.led p.lpTokenMint = _; rw [supplyOf, hm]; rfl
  rw [es]
  by_contra hS
  by_cases hT0 : T = 0
  · exact hlpne ((hmint.2.1 hS hT0).trans hu0)
  · apply hlpne; rw [hmint.2.2 hS hT0, hu0]; simp

/-- C12 for RemoveLiquidity, at the rate of the redemption and by the LST's calculator. -/
theorem C12_removeLiquidity {cfg : Cfg} {L : RatioLib} {env : Env cfg} {tx : TxInfo} {w w' : World} {accs : List Acc}
    {args : RemoveLiquidityArgs} {c : AnyCalc} (hr : Reachable cfg L w) (hq : env.Quiet)
    (hc : ValuedBy L env w args.lstIndex c) (hu : c.Usable)
    (h : processIx cfg L env tx w accs (.removeLiquidity args) = .ok w') :
    ∃ p s signer userLst userLp feeAcc res total v vAfter out fee,
      LiqParties cfg w accs args.lstIndex p s signer userLst userLp feeAcc res ∧
      SyncedTotal cfg L w args.lstIndex c total ∧ LpValue (lpSupply w) total args.lpTokenAmount v ∧
      PriceAnswer env 1 w.led p.pricingProgram [s.mint] (.lpTokensToRedeem args.lpTokenAmount v) vAfter ∧
      (∀ k, bal w'.led k + only userLp.key args.lpTokenAmount k + only res.key (out + fee) k =
        bal w.led k + only userLst.key out k + only feeAcc.key fee k) ∧
      FeeBound (v - vAfter) p.lpProtocolFeeBps out vAfter fee ∧
      (∀ x, (c.calculator L).lstToSol fee = .ok x → x.min ≤ protocolShare (v - vAfter) p.lpProtocolFeeBps) := by
  obtain ⟨p, s, signer, userLst, userLp, feeAcc, res, m, r0, T, v, u, out, fee, hpar, hm, _, _, a0, hT,
    hval, a1, hle, a2, hone, hmin, hnz, hfee, hb, hburn, hmints, _⟩ := C07_removeLiquidity hq h
  have hV := hc s hpar.entry
  obtain ⟨_, ms0, _, hms0, q0⟩ := a0
  obtain ⟨_, ms2, _, hms2, q2⟩ := a2
  have c0 := (hV _ _ _ _ _ hms0).1 _ q0
  have c2 := (hV _ _ _ _ _ hms2).2 _ q2
  have e2 : out.min = c.rmin u := by rw [(AnyCalc.is L hu).solToLst c2]
  have hne : u ≠ 0 := by rintro rfl; rw [c.rmin_zero] at e2; exact hone e2
  obtain ⟨mm, hmm, hres, hacc⟩ := hpar.derived
  have es : lpSupply w = m.supply := by
    rw [lpSupply, hpar.pool]; show supplyOf w.led p.lpTokenMint = _; rw [supplyOf, hm]; rfl
  have hfb := feeBound (hr.inv.ctl.fees p hpar.pool).2 (hfee hne)
  refine ⟨p, s, signer, userLst, userLp, feeAcc, res, T, v, u, out.min, fee, hpar,
    ⟨p, s, res.key, r0, hpar.pool, hpar.entry, ⟨mm, hmm, hres⟩, c0, hT⟩, es ▸ hval, a1, hb, hfb, ?_⟩
  intro x hx
  rw [(AnyCalc.is L hu).lstToSol hx]
  have hw := hfb.worth
  rw [e2] at hw
  exact AnyCalc.fee_value hu (AnyCalc.answers_of (.inr c2)) hne hw

-- The fees of the example's runs (C04, C05, C07): 2 of LST 22 for 30 lamports charged on each swap, 11 of LST 21 for 101 charged on
-- the redemption, at 1000 bps.
example : [protocolShare 30 1000, protocolShare 101 1000] = [3, 11] ∧ FeeBound 30 1000 1980 2970 2 ∧ FeeBound 101 1000 9908 9908 11 :=
  ⟨by decide, feeBound (by decide) (by decide), feeBound (by decide) (by decide)⟩

/-! ### C37 -/

/-- The pricing program `prog` charges no negative fees: nobody gets more value out than goes in. -/
structure Env.NoRebate {cfg : Cfg} (env : Env cfg) (prog : Pubkey) : Prop where
  exactIn : ∀ {n w ms a v r l}, env.askPrice n w prog ms (.exactIn a v) = .ok (r, l) → r ≤ v
  exactOut : ∀ {n w ms a v r l}, env.askPrice n w prog ms (.exactOut a v) = .ok (r, l) → v ≤ r

section
variable {cfg : Cfg} {w w' : World} {accs : List Acc} {srcIdx dstIdx srcIn dstOut fee : Nat} {p : PoolState}
  {src dst : LstState} {signer srcAcc dstAcc feeAcc srcRes dstRes : Acc}

theorem SwapMoves.poolAccs (m : SwapMoves cfg w w' accs srcIdx dstIdx srcIn dstOut fee p src dst signer srcAcc dstAcc feeAcc srcRes dstRes)
    (hi : Inv cfg w) : (∃ a, w.led.tok srcRes.key = some a ∧ a.owner = cfg.poolState ∧ a.mint = src.mint) ∧
      (∃ a, w.led.tok dstRes.key = some a ∧ a.owner = cfg.poolState ∧ a.mint = dst.mint) ∧
      (∃ a, w.led.tok feeAcc.key = some a ∧ a.owner = cfg.protocolFee ∧ a.mint = dst.mint) := by
  obtain ⟨ms, md, h1, h2, h3, h4, h5⟩ := m.reserves
  refine ⟨lstAccounts_unique hi m.srcEntry ⟨ms, h1, h3⟩, lstAccounts_unique hi m.dstEntry ⟨md, h2, h4⟩, ?_⟩
  obtain ⟨m', res', acc', ra', fa', la⟩ := hi.accs dst (List.mem_of_getElem? m.dstEntry)
  have e' := la.mint; rw [h2] at e'; injection e' with e'; subst e'
  have e' := la.acc_key; rw [h5] at e'; injection e' with e'; subst e'
  exact ⟨fa', la.acc, la.fa_owner, la.fa_mint⟩

theorem tok_ne {l : Ledger} {k k' : Pubkey} {a a' : TokenAcc} (h : l.tok k = some a) (h' : l.tok k' = some a') (hne : a ≠ a') : k ≠ k' := by
  rintro rfl; rw [h] at h'; injection h' with h'; exact hne h'

/-- The paying account loses exactly the input. -/
theorem SwapMoves.paid (m : SwapMoves cfg w w' accs srcIdx dstIdx srcIn dstOut fee p src dst signer srcAcc dstAcc feeAcc srcRes dstRes)
    (hi : Inv cfg w) (hs : signersOk cfg accs) : bal w'.led srcAcc.key + srcIn = bal w.led srcAcc.key := by
  obtain ⟨⟨sr, h1, h1o, h1m⟩, ⟨dr, h2, h2o, h2m⟩, ⟨fa, h3, h3o, h3m⟩⟩ := m.poolAccs hi
  obtain ⟨hsg, a, ha, hao, ham⟩ := m.paidBySigner
  obtain ⟨d, hd, hdm⟩ := m.received
  have hsig := hs signer (List.mem_of_getElem? m.pos0) hsg
  have hne := m.mintsNe
  have n1 : srcAcc.key ≠ srcRes.key := tok_ne ha h1 (by rintro rfl; exact hsig.1 (hao.symm.trans h1o))
  have n2 : srcAcc.key ≠ dstRes.key := tok_ne ha h2 (by rintro rfl; exact hne (ham.symm.trans h2m))
  have n3 : srcAcc.key ≠ feeAcc.key := tok_ne ha h3 (by rintro rfl; exact hne (ham.symm.trans h3m))
  have n4 : srcAcc.key ≠ dstAcc.key := tok_ne ha hd (by rintro rfl; exact hne (ham.symm.trans hdm))
  have := m.moves srcAcc.key
  rw [only_self, only_ne _ n1, only_ne _ n2, only_ne _ n3, only_ne _ n4] at this
  omega

/-- A receiving account that is not the pool's or the protocol's gains exactly the output. -/
theorem SwapMoves.got (m : SwapMoves cfg w w' accs srcIdx dstIdx srcIn dstOut fee p src dst signer srcAcc dstAcc feeAcc srcRes dstRes)
    (hi : Inv cfg w) {d : TokenAcc} (hd : w.led.tok dstAcc.key = some d) (ho : d.owner ≠ cfg.poolState ∧ d.owner ≠ cfg.protocolFee) :
    bal w'.led dstAcc.key = bal w.led dstAcc.key + dstOut := by
  obtain ⟨⟨sr, h1, h1o, h1m⟩, ⟨dr, h2, h2o, h2m⟩, ⟨fa, h3, h3o, h3m⟩⟩ := m.poolAccs hi
  obtain ⟨hsg, a, ha, hao, ham⟩ := m.paidBySigner
  obtain ⟨d', hd', hdm⟩ := m.received
  rw [hd] at hd'; injection hd' with hd'; subst hd'
  have hne := m.mintsNe
  have n1 : dstAcc.key ≠ srcRes.key := tok_ne hd h1 (by rintro rfl; exact ho.1 h1o)
  have n2 : dstAcc.key ≠ dstRes.key := tok_ne hd h2 (by rintro rfl; exact ho.1 h2o)
  have n3 : dstAcc.key ≠ feeAcc.key := tok_ne hd h3 (by rintro rfl; exact ho.2 h3o)
  have n4 : dstAcc.key ≠ srcAcc.key := tok_ne hd ha (by rintro rfl; exact hne (ham.symm.trans hdm))
  have := m.moves dstAcc.key
  rw [only_self, only_ne _ n1, only_ne _ n2, only_ne _ n3, only_ne _ n4] at this
  omega
end

/-- A swap instruction and its two indices. -/
def Ix.IsSwap (ix : Ix) (i j : Nat) : Prop :=
  (∃ a, ix = .swapExactIn a ∧ a.srcLstIndex = i ∧ a.dstLstIndex = j) ∨ (∃ a, ix = .swapExactOut a ∧ a.srcLstIndex = i ∧ a.dstLstIndex = j)

/-- Value never increases in a swap without rebates: the output is worth at most the input, by the two LSTs' calculators. -/
theorem swap_value {cfg : Cfg} {L : RatioLib} {env : Env cfg} {tx : TxInfo} {w w' : World} {accs : List Acc} {ix : Ix} {i j : Nat}
    {cs cd : AnyCalc} (hix : ix.IsSwap i j) (hq : env.Quiet) (hn : ∀ p, w.ctl.pool = some p → env.NoRebate p.pricingProgram) (hcs : ValuedBy L env w i cs)
    (hcd : ValuedBy L env w j cd) (hus : cs.Usable) (hud : cd.Usable) (h : processIx cfg L env tx w accs ix = .ok w') :
    ∃ srcIn dstOut fee p src dst signer srcAcc dstAcc feeAcc srcRes dstRes,
      SwapMoves cfg w w' accs i j srcIn dstOut fee p src dst signer srcAcc dstAcc feeAcc srcRes dstRes ∧
      cd.f dstOut ≤ cs.f srcIn ∧ cs.Answers ∧ cd.Answers ∧
      (∀ a, ix = .swapExactIn a → srcIn = a.amount ∧ dstOut ≤ cd.rmin (cs.f srcIn)) := by
  rcases hix with ⟨a, rfl, rfl, rfl⟩ | ⟨a, rfl, rfl, rfl⟩
  · obtain ⟨out, fee, p, src, dst, signer, srcAcc, dstAcc, feeAcc, srcRes, dstRes, inSol, outSol, rOut, hm, a2, a3, a4, ho, _⟩ :=
      C04_swapExactIn hq h
    obtain ⟨_, _, _, h2, q2⟩ := a2
    obtain ⟨_, _, _, _, q3⟩ := a3
    obtain ⟨_, _, _, h4, q4⟩ := a4
    have c2 := (hcs src hm.srcEntry _ _ _ _ _ h2).1 _ q2
    have c4 := (hcd dst hm.dstEntry _ _ _ _ _ h4).2 _ q4
    have as := AnyCalc.answers_of (.inl c2)
    have ad := AnyCalc.answers_of (.inr c4)
    have hle := (hn p hm.pool).exactIn q3
    rw [(AnyCalc.is L hus).lstToSol c2] at hle
    have e4 : out = cd.rmin outSol := by rw [ho, (AnyCalc.is L hud).solToLst c4]
    have hcv := cd.conv hud ad
    refine ⟨a.amount, out, fee, p, src, dst, signer, srcAcc, dstAcc, feeAcc, srcRes, dstRes, hm, ?_, as, ad, ?_⟩
    · rw [e4]; exact (hcv.down _).trans hle
    · intro a' ha'; injection ha' with ha'; subst ha'
      exact ⟨rfl, by rw [e4]; exact hcv.minMono hle⟩
  · obtain ⟨srcIn, fee, p, src, dst, signer, srcAcc, dstAcc, feeAcc, srcRes, dstRes, outSol, inSol, rIn, hm, a2, a3, a4, hi, _⟩ :=
      C05_swapExactOut hq h
    obtain ⟨_, _, _, h2, q2⟩ := a2
    obtain ⟨_, _, _, _, q3⟩ := a3
    obtain ⟨_, _, _, h4, q4⟩ := a4
    have c2 := (hcd dst hm.dstEntry _ _ _ _ _ h2).1 _ q2
    have c4 := (hcs src hm.srcEntry _ _ _ _ _ h4).2 _ q4
    have ad := AnyCalc.answers_of (.inl c2)
    have as := AnyCalc.answers_of (.inr c4)
    have hle := (hn p hm.pool).exactOut q3
    rw [(AnyCalc.is L hud).lstToSol c2] at hle
    have e4 : srcIn = cs.rmax inSol := by rw [hi, (AnyCalc.is L hus).solToLst c4]
    refine ⟨srcIn, a.amount, fee, p, src, dst, signer, srcAcc, dstAcc, feeAcc, srcRes, dstRes, hm, ?_, as, ad, ?_⟩
    · rw [e4]; exact hle.trans ((cs.conv hus as).up _)
    · intro a' ha'; cases ha'

/-- C37: swap one LST (index `i`, account `kA`) for another (index `j`, account `kB`), by exact input or exact output, then swap at most
the proceeds back by exact input: `kA` ends with at most the balance before. For all of the repository's calculators, on
unchanged stake pool data, and any pricing without negative fees. -/
theorem C37_there_and_back {cfg : Cfg} {L : RatioLib} {env₁ env₂ : Env cfg} {tx₁ tx₂ : TxInfo} {w w₁ w₂ : World}
    {accs₁ accs₂ : List Acc} {ix : Ix} {a₂ : SwapExactInArgs} {i j : Nat} {cA cB : AnyCalc} {kA kB : Pubkey}
    (hr : Reachable cfg L w) (hs₁ : signersOk cfg accs₁) (hs₂ : signersOk cfg accs₂) (hq₁ : env₁.Quiet) (hq₂ : env₂.Quiet)
    (hn₁ : ∀ p, w.ctl.pool = some p → env₁.NoRebate p.pricingProgram)
    (hn₂ : ∀ p, w₁.ctl.pool = some p → env₂.NoRebate p.pricingProgram) (hcA₁ : ValuedBy L env₁ w i cA) (hcB₁ : ValuedBy L env₁ w j cB)
    (hcA₂ : ValuedBy L env₂ w₁ i cA) (hcB₂ : ValuedBy L env₂ w₁ j cB) (huA : cA.Usable) (huB : cB.Usable)
    (hix : ix.IsSwap i j) (hi₂ : a₂.srcLstIndex = j) (hj₂ : a₂.dstLstIndex = i)
    (h₁ : processIx cfg L env₁ tx₁ w accs₁ ix = .ok w₁)
    (h₂ : processIx cfg L env₂ tx₂ w₁ accs₂ (.swapExactIn a₂) = .ok w₂)
    (hA₁ : (accs₁[3]?).map Acc.key = some kA) (hB₁ : (accs₁[4]?).map Acc.key = some kB)
    (hB₂ : (accs₂[3]?).map Acc.key = some kB) (hA₂ : (accs₂[4]?).map Acc.key = some kA)
    (hamt : bal w.led kB + a₂.amount ≤ bal w₁.led kB) :
    bal w₂.led kA ≤ bal w.led kA := by
  obtain ⟨x, y, fee, p, src, dst, signer, srcAcc, dstAcc, feeAcc, srcRes, dstRes, m, hv, ansA, ansB, _⟩ :=
    swap_value hix hq₁ hn₁ hcA₁ hcB₁ huA huB h₁
  obtain ⟨x₂, y₂, fee₂, p₂, src₂, dst₂, signer₂, srcAcc₂, dstAcc₂, feeAcc₂, srcRes₂, dstRes₂, m₂, _, _, _, hin⟩ :=
    swap_value (i := j) (j := i) (.inl ⟨a₂, rfl, hi₂, hj₂⟩) hq₂ hn₂ hcB₂ hcA₂ huB huA h₂
  obtain ⟨rfl, hout⟩ := hin a₂ rfl
  rw [m.pos3] at hA₁; injection hA₁ with hA₁
  rw [m.pos4] at hB₁; injection hB₁ with hB₁
  rw [m₂.pos3] at hB₂; injection hB₂ with hB₂
  rw [m₂.pos4] at hA₂; injection hA₂ with hA₂
  have hI := hr.inv
  have hI₁ := hI.ix h₁
  obtain ⟨hsg, a, ha, hao, ham⟩ := m.paidBySigner
  obtain ⟨hsg₂, b, hb, hbo, hbm⟩ := m₂.paidBySigner
  have hsig := hs₁ signer (List.mem_of_getElem? m.pos0) hsg
  have hsig₂ := hs₂ signer₂ (List.mem_of_getElem? m₂.pos0) hsg₂
  -- owners do not change
  have back : ∀ {k b}, w₁.led.tok k = some b → ∃ d, w.led.tok k = some d ∧ d.owner = b.owner := by
    intro k b hb
    have := m.accounts k
    rw [hb] at this
    cases h : w.led.tok k with
    | none => rw [h] at this; cases this
    | some d =>
      rw [h] at this
      simp only [Option.map_some, Option.some.injEq, Prod.mk.injEq] at this
      exact ⟨d, rfl, this.2.2.symm⟩
  have fwd : ∀ {k d}, w.led.tok k = some d → ∃ b, w₁.led.tok k = some b ∧ b.owner = d.owner := by
    intro k d hd
    have := m.accounts k
    rw [hd] at this
    cases h : w₁.led.tok k with
    | none => rw [h] at this; cases this
    | some b =>
      rw [h] at this
      simp only [Option.map_some, Option.some.injEq, Prod.mk.injEq] at this
      exact ⟨b, rfl, this.2.2⟩
  rw [hB₂] at hb
  obtain ⟨d, hd, hdo⟩ := back hb
  rw [hA₁] at ha
  obtain ⟨a', ha', hao'⟩ := fwd ha
  have e1 := m.paid hI hs₁
  have e2 := m.got hI (d := d) (by rw [hB₁]; exact hd) (by rw [hdo, hbo]; exact hsig₂)
  have e3 := m₂.got hI₁ (d := a') (by rw [hA₂]; exact ha') (by rw [hao', hao]; exact hsig)
  rw [hA₁] at e1
  rw [hB₁] at e2
  rw [hA₂] at e3
  have hcB := cB.conv huB ansB
  have hcA := cA.conv huA ansA
  have h5 : cB.f a₂.amount ≤ cA.f x := (hcB.fmono (show a₂.amount ≤ y by omega)).trans hv
  have h6 := (hout.trans (hcA.minMono h5)).trans (hcA.backMin x)
  omega

/-! A concrete round trip: 3000 of LST 21 for LST 22 and the proceeds back. -/

theorem Ex.noRebate (prog : Pubkey) : Ex.env.NoRebate prog where
  exactIn {n w ms a v r l} h := by
    have := (Env.pure_price.1 h).1
    injection this with this
    omega
  exactOut {n w ms a v r l} h := by
    have := (Env.pure_price.1 h).1
    injection this with this
    have := le_cdiv_mul (v * 100) (b := 99) (by decide)
    omega

def Ex.swapBA : List Acc := [Ex.sg 40, Ex.ro 22, Ex.ro 21, Ex.rw 42, Ex.rw 41, Ex.rw Ex.feeA, Ex.ro 8, Ex.ro 8, Ex.rw 1, Ex.rw 2,
  Ex.rw Ex.resB, Ex.rw Ex.resA, Ex.ro 32, Ex.ro 31, Ex.ro 7]
def Ex.there : World :=
  ((processIx Ex.cfg .ex Ex.env ⟨[], 0⟩ (Ex.st 7) Ex.swapAB (.swapExactIn ⟨1, 1, 0, 1, 10, 3000⟩)).toOption).getD Ex.w0
def Ex.andBack : World :=
  ((processIx Ex.cfg .ex Ex.env ⟨[], 0⟩ Ex.there Ex.swapBA (.swapExactIn ⟨1, 1, 1, 0, 10, 1980⟩)).toOption).getD Ex.w0

-- The hypotheses of C37 (and, for the first swap, of C12).
example : signersOk Ex.cfg Ex.swapAB ∧ signersOk Ex.cfg Ex.swapBA ∧ Ex.env.Quiet ∧ Ex.env.NoRebate 7 ∧ (Ex.st 7).ctl.pool.map (·.pricingProgram) = some 7 ∧
    (processIx Ex.cfg .ex Ex.env ⟨[], 0⟩ (Ex.st 7) Ex.swapAB (.swapExactIn ⟨1, 1, 0, 1, 10, 3000⟩)).toOption.isSome = true ∧
    (processIx Ex.cfg .ex Ex.env ⟨[], 0⟩ Ex.there Ex.swapBA (.swapExactIn ⟨1, 1, 1, 0, 10, 1980⟩)).toOption.isSome = true ∧
    (Ex.there.ctl.lsts.map LstState.solValueCalculator) = [31, 32] ∧
    bal Ex.there.led 42 = bal (Ex.st 7).led 42 + 1980 ∧ bal (Ex.st 7).led 41 = bal Ex.there.led 41 + 3000 ∧
    bal Ex.andBack.led 41 = bal Ex.there.led 41 + 2940 :=
  ⟨by decide +kernel, by decide +kernel, Env.pure_quiet, Ex.noRebate 7, by decide +kernel, by decide +kernel, by decide +kernel, by decide +kernel,
    by decide +kernel, by decide +kernel, by decide +kernel⟩

end S
