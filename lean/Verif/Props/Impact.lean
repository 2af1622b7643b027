import Verif.Props.Slippage
import Verif.Props.Lists
/-
C78: swaps have no price impact.
-/
set_option autoImplicit false
namespace S

/-! ### Specification -/

/-- Two swap instructions about the same two mints that pass the same accounts on to the calculators and the pricing program. Signers, token accounts and
everything else may differ. -/
structure SameSwap (accs₁ accs₂ : List Acc) : Prop where
  src : (accs₁[1]?).map Acc.key = (accs₂[1]?).map Acc.key
  dst : (accs₁[2]?).map Acc.key = (accs₂[2]?).map Acc.key
  programs : accs₁.drop 12 = accs₂.drop 12

/-- `w₂` comes from `w₁` by swaps, deposits, redemptions and syncs of anyone (in any number, successful ones: failed ones change nothing), while other
programs change token accounts at will. -/
inductive ByUsers (cfg : Cfg) (L : RatioLib) : World → World → Prop
  | refl (w : World) : ByUsers cfg L w w
  | ix {w₁ w₂ w₃ : World} {env : Env cfg} {tx : TxInfo} {accs : List Acc} {ix : Ix} : ByUsers cfg L w₁ w₂ → ix.userIndices ≠ none →
      processIx cfg L env tx w₂ accs ix = .ok w₃ → ByUsers cfg L w₁ w₃
  | other {w₁ w₂ : World} (l : Ledger) : ByUsers cfg L w₁ w₂ → ByUsers cfg L w₁ { w₂ with led := l }

/-! ### Proofs -/

section
variable {cfg : Cfg} {L : RatioLib} {f : Pubkey → List Acc → CalcReq → R Range} {g : Pubkey → List Acc → PriceReq → R Nat}

theorem verifyCalcCpi_fixed {l₁ l₂ : List LstState} {m : Pubkey} {s : List Acc} {i j : Nat} {a b : CalcCpi} (h1 : verifyCalcCpi l₁ m s i = .ok a)
    (h2 : verifyCalcCpi l₂ m s j = .ok b) : a = b := by
  simp only [verifyCalcCpi, bind_ok, require_ok, exists_const, okOr_ok, pure_ok] at h1 h2
  obtain ⟨x, hx, _, _, _, rfl⟩ := h1
  obtain ⟨y, hy, _, _, _, rfl⟩ := h2
  rw [hx] at hy; injection hy

theorem verifyPriceCpi_fixed {p q : PoolState} {m : List Pubkey} {s : List Acc} {a b : PriceCpi} (h1 : verifyPriceCpi p m s = .ok a)
    (h2 : verifyPriceCpi q m s = .ok b) : a = b := by
  cases s with
  | nil => cases h1
  | cons x xs =>
    simp only [verifyPriceCpi, bind_ok, require_ok, exists_const, pure_ok] at h1 h2
    obtain ⟨_, rfl⟩ := h1
    obtain ⟨_, rfl⟩ := h2
    rfl

/-- The programs a swap calls and the accounts it passes them are fixed by the instruction. -/
theorem verifySwapCpis_fixed {ls₁ ls₂ : List LstState} {p₁ p₂ : PoolState} {sm dm : Pubkey} {suffix : List Acc} {na nb i j i' j' : Nat} {c₁ c₂ : SwapCpis}
    (h₁ : verifySwapCpis ls₁ p₁ sm dm suffix na nb i j = .ok c₁) (h₂ : verifySwapCpis ls₂ p₂ sm dm suffix na nb i' j' = .ok c₂) : c₁ = c₂ := by
  simp only [verifySwapCpis, verifySrcDstCpis, bind_ok, Prod.exists, pure_ok] at h₁ h₂
  obtain ⟨a, b, hs, _, ⟨a', b', hs', x, hx, y, hy, rfl⟩, z, hz, rfl⟩ := h₁
  obtain ⟨a₂, b₂, ht, _, ⟨a₂', b₂', ht', x₂, hx₂, y₂, hy₂, rfl⟩, z₂, hz₂, rfl⟩ := h₂
  rw [hs] at ht; cases ht
  rw [hs'] at ht'; cases ht'
  rw [verifyCalcCpi_fixed hx hx₂, verifyCalcCpi_fixed hy hy₂, verifyPriceCpi_fixed hz hz₂]

theorem SwapRun.same {env₁ env₂ : Env cfg} {w₁ w₁' w₂ w₂' : World} {accs₁ accs₂ : List Acc} {na nb i j i' j' x₁ y₁ x₂ y₂ : Nat}
    (r₁ : SwapRun L env₁ w₁ accs₁ na nb i j x₁ y₁ w₁') (r₂ : SwapRun L env₂ w₂ accs₂ na nb i' j' x₂ y₂ w₂') (hs : SameSwap accs₁ accs₂) : r₁.c = r₂.c := by
  have l₁ := SwapAccs.load_all r₁.ver.load
  have l₂ := SwapAccs.load_all r₂.ver.load
  have hsrc := hs.src
  have hdst := hs.dst
  have hpro := hs.programs
  rw [l₁, l₂] at hsrc hdst hpro
  simp at hsrc hdst hpro
  have c₁ := r₁.ver.cpis
  have c₂ := r₂.ver.cpis
  rw [hsrc, hdst, hpro] at c₁
  exact verifySwapCpis_fixed c₁ c₂

theorem SwapRun.bps {env : Env cfg} {w w' : World} {accs : List Acc} {na nb i j x y : Nat} (r : SwapRun L env w accs na nb i j x y w') :
    r.p2.tradingProtocolFeeBps = r.p.tradingProtocolFeeBps := by
  obtain ⟨p0, s0, f0⟩ := ctlSync_ok.1 r.sync0.sync
  obtain ⟨p1, s1, f1⟩ := ctlSync_ok.1 r.sync1.sync
  have e0 := f0.pool; rw [r.ver.pool] at e0; injection e0 with e0; subst e0
  have e1 := f1.pool; rw [congrArg Ctl.pool f0.eq] at e1; injection e1 with e1; subst e1
  have e2 := r.pool2; rw [congrArg Ctl.pool f1.eq] at e2; injection e2 with e2; rw [← e2]

/-- C78, SwapExactIn. What is paid for an amount of an LST depends on the calculators' and the pricing program's answers only: any two swaps of the same
amount between the same mints, by anyone, in any two states of the pool (whatever its reserves, recorded values, LP supply and history), pay the same, and
the same protocol fee if the fee rate is the same. -/
theorem C78_swapExactIn {tx₁ tx₂ : TxInfo} {w₁ w₁' w₂ w₂' : World} {accs₁ accs₂ : List Acc} {args₁ args₂ : SwapExactInArgs}
    (h₁ : processIx cfg L (.pure cfg f g) tx₁ w₁ accs₁ (.swapExactIn args₁) = .ok w₁')
    (h₂ : processIx cfg L (.pure cfg f g) tx₂ w₂ accs₂ (.swapExactIn args₂) = .ok w₂')
    (hs : SameSwap accs₁ accs₂) (ha : args₁.amount = args₂.amount)
    (hc : args₁.srcLstValueCalcAccs = args₂.srcLstValueCalcAccs ∧ args₁.dstLstValueCalcAccs = args₂.dstLstValueCalcAccs) :
    ∃ (out fee₁ fee₂ : Nat) (p₁ p₂ : PoolState),
      (∃ src dst signer srcAcc dstAcc feeAcc srcRes dstRes, SwapMoves cfg w₁ w₁' accs₁ args₁.srcLstIndex args₁.dstLstIndex args₁.amount out fee₁ p₁
        src dst signer srcAcc dstAcc feeAcc srcRes dstRes) ∧
      (∃ src dst signer srcAcc dstAcc feeAcc srcRes dstRes, SwapMoves cfg w₂ w₂' accs₂ args₂.srcLstIndex args₂.dstLstIndex args₂.amount out fee₂ p₂
        src dst signer srcAcc dstAcc feeAcc srcRes dstRes) ∧
      (p₁.tradingProtocolFeeBps = p₂.tradingProtocolFeeBps → fee₁ = fee₂) := by
  obtain ⟨na, nb, i, j, b₁, a⟩ := args₁
  obtain ⟨na', nb', i', j', b₂, a'⟩ := args₂
  obtain ⟨rfl, rfl⟩ := hc
  dsimp only at ha; subst ha
  obtain ⟨out₁, ⟨r₁⟩, hb₁⟩ := swapIn_slip h₁
  obtain ⟨out₂, ⟨r₂⟩, hb₂⟩ := swapIn_slip h₂
  have hq := Env.pure_quiet (cfg := cfg) (calcF := f) (priceF := g)
  have moves : ∀ {tx : TxInfo} {w w' : World} {accs : List Acc} {args : SwapExactInArgs} {out : Nat}
      (r : SwapInRun L (.pure cfg f g) w accs args w' out), r.l5 = w.led := fun r =>
    (hq.calcF r.ask4).trans ((hq.priceF r.ask3).trans ((hq.calcF r.ask2).trans ((r.sync1.quiet hq).trans (r.sync0.quiet hq))))
  have hcc : r₁.c = r₂.c := r₁.toSwapRun.same r₂.toSwapRun hs
  have e2 := (Env.pure_calc.1 r₁.ask2).1
  have e3 := (Env.pure_price.1 r₁.ask3).1
  have e4 := (Env.pure_calc.1 r₁.ask4).1
  have k2 := (Env.pure_calc.1 r₂.ask2).1
  have k3 := (Env.pure_price.1 r₂.ask3).1
  have k4 := (Env.pure_calc.1 r₂.ask4).1
  rw [hcc] at e2 e3 e4
  rw [e2] at k2; injection k2 with k2
  have hin : r₁.inSol = r₂.inSol := by rw [r₁.inSol_eq, r₂.inSol_eq, k2]
  rw [hin, k3] at e3; injection e3 with e3
  rw [← e3, k4] at e4; injection e4 with e4
  have hout : out₁ = out₂ := by rw [r₁.out_eq, r₂.out_eq, e4]
  subst hout
  refine ⟨out₁, r₁.fee, r₂.fee, r₁.p, r₂.p, ⟨_, _, _, _, _, _, _, _, r₁.toSwapRun.moves hq (moves (tx := tx₁) r₁)⟩,
    ⟨_, _, _, _, _, _, _, _, r₂.toSwapRun.moves hq (moves (tx := tx₂) r₂)⟩, fun hbps => ?_⟩
  have f₁ := r₁.hfee
  have f₂ := r₂.hfee
  rw [r₁.toSwapRun.bps, hin, ← e3, hbps] at f₁
  rw [r₂.toSwapRun.bps, f₁] at f₂
  injection f₂

/-- C78, SwapExactOut: likewise for what is taken for an amount bought. -/
theorem C78_swapExactOut {tx₁ tx₂ : TxInfo} {w₁ w₁' w₂ w₂' : World} {accs₁ accs₂ : List Acc} {args₁ args₂ : SwapExactOutArgs}
    (h₁ : processIx cfg L (.pure cfg f g) tx₁ w₁ accs₁ (.swapExactOut args₁) = .ok w₁')
    (h₂ : processIx cfg L (.pure cfg f g) tx₂ w₂ accs₂ (.swapExactOut args₂) = .ok w₂')
    (hs : SameSwap accs₁ accs₂) (ha : args₁.amount = args₂.amount)
    (hc : args₁.srcLstValueCalcAccs = args₂.srcLstValueCalcAccs ∧ args₁.dstLstValueCalcAccs = args₂.dstLstValueCalcAccs) :
    ∃ (inp fee₁ fee₂ : Nat) (p₁ p₂ : PoolState),
      (∃ src dst signer srcAcc dstAcc feeAcc srcRes dstRes, SwapMoves cfg w₁ w₁' accs₁ args₁.srcLstIndex args₁.dstLstIndex inp args₁.amount fee₁ p₁
        src dst signer srcAcc dstAcc feeAcc srcRes dstRes) ∧
      (∃ src dst signer srcAcc dstAcc feeAcc srcRes dstRes, SwapMoves cfg w₂ w₂' accs₂ args₂.srcLstIndex args₂.dstLstIndex inp args₂.amount fee₂ p₂
        src dst signer srcAcc dstAcc feeAcc srcRes dstRes) ∧
      (p₁.tradingProtocolFeeBps = p₂.tradingProtocolFeeBps → fee₁ = fee₂) := by
  obtain ⟨na, nb, i, j, b₁, a⟩ := args₁
  obtain ⟨na', nb', i', j', b₂, a'⟩ := args₂
  obtain ⟨rfl, rfl⟩ := hc
  dsimp only at ha; subst ha
  obtain ⟨in₁, ⟨r₁⟩, hb₁⟩ := swapOut_slip h₁
  obtain ⟨in₂, ⟨r₂⟩, hb₂⟩ := swapOut_slip h₂
  have hq := Env.pure_quiet (cfg := cfg) (calcF := f) (priceF := g)
  have moves : ∀ {tx : TxInfo} {w w' : World} {accs : List Acc} {args : SwapExactOutArgs} {out : Nat}
      (r : SwapOutRun L (.pure cfg f g) w accs args w' out), r.l5 = w.led := fun r =>
    (hq.calcF r.ask4).trans ((hq.priceF r.ask3).trans ((hq.calcF r.ask2).trans ((r.sync1.quiet hq).trans (r.sync0.quiet hq))))
  have hcc : r₁.c = r₂.c := r₁.toSwapRun.same r₂.toSwapRun hs
  have e2 := (Env.pure_calc.1 r₁.ask2).1
  have e3 := (Env.pure_price.1 r₁.ask3).1
  have e4 := (Env.pure_calc.1 r₁.ask4).1
  have k2 := (Env.pure_calc.1 r₂.ask2).1
  have k3 := (Env.pure_price.1 r₂.ask3).1
  have k4 := (Env.pure_calc.1 r₂.ask4).1
  rw [hcc] at e2 e3 e4
  rw [e2] at k2; injection k2 with k2
  have hin : r₁.outSol = r₂.outSol := by rw [r₁.outSol_eq, r₂.outSol_eq, k2]
  rw [hin, k3] at e3; injection e3 with e3
  rw [← e3, k4] at e4; injection e4 with e4
  have hout : in₁ = in₂ := by rw [r₁.in_eq, r₂.in_eq, e4]
  subst hout
  refine ⟨in₁, r₁.fee, r₂.fee, r₁.p, r₂.p, ⟨_, _, _, _, _, _, _, _, r₁.toSwapRun.moves hq (moves (tx := tx₁) r₁)⟩,
    ⟨_, _, _, _, _, _, _, _, r₂.toSwapRun.moves hq (moves (tx := tx₂) r₂)⟩, fun hbps => ?_⟩
  have f₁ := r₁.hfee
  have f₂ := r₂.hfee
  rw [r₁.toSwapRun.bps, hin, ← e3, hbps] at f₁
  rw [r₂.toSwapRun.bps, f₁] at f₂
  injection f₂

theorem ByUsers.bps {w₁ w₂ : World} (h : ByUsers cfg L w₁ w₂) :
    w₂.ctl.pool.map PoolState.tradingProtocolFeeBps = w₁.ctl.pool.map PoolState.tradingProtocolFeeBps := by
  induction h with
  | refl => rfl
  | @ix w₂ w₃ env tx accs ix _ hu h ih =>
    obtain ⟨is, his⟩ := Option.ne_none_iff_exists'.1 hu
    obtain ⟨⟨p, t, hp, hp'⟩, _⟩ := C47_user_instructions h his
    rw [← ih, hp, hp']; rfl
  | other l _ ih => exact ih

/-- C78, front-running: trades, deposits, redemptions and syncs by others before a swap, in any number, do not change what the swap pays, nor the protocol
fee. -/
theorem C78_front_running {tx₁ tx₂ : TxInfo} {w₁ w₁' w₂ w₂' : World} {accs : List Acc} {args : SwapExactInArgs} (hu : ByUsers cfg L w₁ w₂)
    (h₁ : processIx cfg L (.pure cfg f g) tx₁ w₁ accs (.swapExactIn args) = .ok w₁')
    (h₂ : processIx cfg L (.pure cfg f g) tx₂ w₂ accs (.swapExactIn args) = .ok w₂') :
    ∃ (srcAcc dstAcc feeAcc srcRes dstRes : Acc) (out fee : Nat),
      accs[3]? = some srcAcc ∧ accs[4]? = some dstAcc ∧ accs[5]? = some feeAcc ∧ accs[10]? = some srcRes ∧ accs[11]? = some dstRes ∧
      (∀ k, bal w₁'.led k + only srcAcc.key args.amount k + only dstRes.key (out + fee) k =
        bal w₁.led k + only srcRes.key args.amount k + only dstAcc.key out k + only feeAcc.key fee k) ∧
      (∀ k, bal w₂'.led k + only srcAcc.key args.amount k + only dstRes.key (out + fee) k =
        bal w₂.led k + only srcRes.key args.amount k + only dstAcc.key out k + only feeAcc.key fee k) := by
  obtain ⟨out, fee₁, fee₂, p₁, p₂, ⟨src, dst, signer, srcAcc, dstAcc, feeAcc, srcRes, dstRes, m₁⟩, ⟨src', dst', signer', srcAcc', dstAcc', feeAcc', srcRes', dstRes', m₂⟩, hf⟩ :=
    C78_swapExactIn h₁ h₂ ⟨rfl, rfl, rfl⟩ rfl ⟨rfl, rfl⟩
  have hb := hu.bps
  rw [m₁.pool, m₂.pool] at hb
  obtain rfl := hf (by simpa using hb.symm)
  have q3 := m₂.pos3; rw [m₁.pos3] at q3; cases q3
  have q4 := m₂.pos4; rw [m₁.pos4] at q4; cases q4
  have q5 := m₂.pos5; rw [m₁.pos5] at q5; cases q5
  have q10 := m₂.pos10; rw [m₁.pos10] at q10; cases q10
  have q11 := m₂.pos11; rw [m₁.pos11] at q11; cases q11
  exact ⟨srcAcc, dstAcc, feeAcc, srcRes, dstRes, out, fee₁, m₁.pos3, m₁.pos4, m₁.pos5, m₁.pos10, m₁.pos11, m₁.moves, m₂.moves⟩
end

/-! ### Examples -/
namespace Ex

/-- Another user (50, with accounts 51 and 52 at the ends of the same swap). -/
def swapAB' : List Acc := [sg 50, ro 21, ro 22, rw 51, rw 52, rw feeB, ro 8, ro 8, rw 1, rw 2, rw resA, rw resB, ro 31, ro 32, ro 7]

example : SameSwap swapAB swapAB' := ⟨rfl, rfl, rfl⟩

-- before and after a swap the other way round has moved the reserves, the same 3000 buy 1980
example : (processIx cfg .ex env ⟨[], 0⟩ (st 5) swapAB (.swapExactIn ⟨1, 1, 0, 1, 10, 3000⟩)).toOption.map (fun w => bal w.led 42 - bal (st 5).led 42) = some 1980 ∧
    (processIx cfg .ex env ⟨[], 0⟩ (st 7) swapAB (.swapExactIn ⟨1, 1, 0, 1, 10, 3000⟩)).toOption.map (fun w => bal w.led 42 - bal (st 7).led 42) = some 1980 := by
  decide +kernel

/-- The state after somebody's swap of 3000. -/
def st6 : World := (processIx cfg .ex env ⟨[], 0⟩ (st 5) swapAB (.swapExactIn ⟨1, 1, 0, 1, 10, 3000⟩)).toOption.getD w0

theorem st6_byUsers : ByUsers cfg .ex (st 5) st6 := by
  have h : (processIx cfg .ex env ⟨[], 0⟩ (st 5) swapAB (.swapExactIn ⟨1, 1, 0, 1, 10, 3000⟩)).toOption.isSome = true := by decide +kernel
  refine .ix (env := env) (tx := ⟨[], 0⟩) (accs := swapAB) (ix := .swapExactIn ⟨1, 1, 0, 1, 10, 3000⟩) (.refl _) (by decide) ?_
  unfold st6
  cases hp : processIx cfg .ex env ⟨[], 0⟩ (st 5) swapAB (.swapExactIn ⟨1, 1, 0, 1, 10, 3000⟩) with
  | ok w' => rfl
  | error e => rw [hp] at h; cases h

example : (processIx cfg .ex env ⟨[], 0⟩ st6 swapAB (.swapExactIn ⟨1, 1, 0, 1, 10, 3000⟩)).toOption.map (fun w => bal w.led 42 - bal st6.led 42) = some 1980 := by
  decide +kernel

end Ex
end S
