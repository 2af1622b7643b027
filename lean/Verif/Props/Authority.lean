import Verif.Props.Rebalance
/-
Authorities and flags: C13 (disabled / rebalancing pool), C14 (signatures), C15 (changes of authorities and configuration),
C18 (disable-authority list changes), C34 (input-disabled LSTs), C40 (Initialize), C47 (user instructions), C48 (the disabled
flag).
-/
set_option autoImplicit false
namespace S

/-! ### Committed controller calls -/

/-- A committed controller call is a successful instruction. -/
theorem Event.IsIx.process {cfg : Cfg} {L : RatioLib} {w₀ : World} {h : List (Tx cfg)} {e : Event cfg}
    {accs : List Acc} {ix : Ix} (hx : e.IsIx accs ix) (he : e ∈ historyEvents L w₀ h) :
    ∃ env, processIx cfg L env e.tx e.pre accs ix = .ok e.post ∧ signersOk cfg accs := by
  obtain ⟨c, ha, rfl, hd⟩ := hx
  have hrun := (historyEvents_chain L w₀ h).2 e he
  rw [ha] at hrun
  obtain ⟨hs, ix', hd', hp⟩ := Call.run_ok hrun
  rw [hd] at hd'; injection hd' with hd'; subst hd'
  exact ⟨c.env, hp, hs⟩

/-- Every committed action leaves the controller's accounts alone or is a successful instruction. -/
theorem event_cases {cfg : Cfg} {L : RatioLib} {w₀ : World} {h : List (Tx cfg)} {e : Event cfg}
    (he : e ∈ historyEvents L w₀ h) :
    (e.post.ctl = e.pre.ctl ∧ e.pre.led.ExtOk cfg e.post.led ∧ ∀ accs ix, ¬ e.IsIx accs ix) ∨
    ∃ env accs ix, e.IsIx accs ix ∧ signersOk cfg accs ∧ processIx cfg L env e.tx e.pre accs ix = .ok e.post := by
  have hrun := (historyEvents_chain L w₀ h).2 e he
  cases ha : e.act with
  | ext f ok =>
    rw [ha] at hrun
    simp only [Action.run, Except.ok.injEq] at hrun
    refine .inl ⟨by rw [← hrun], by rw [← hrun]; exact ok _, ?_⟩
    rintro accs ix ⟨c, hc, _⟩
    rw [ha] at hc; cases hc
  | call c =>
    rw [ha] at hrun
    obtain ⟨hs, ix, hd, hp⟩ := Call.run_ok hrun
    exact .inr ⟨c.env, c.accs, ix, ⟨c, ha, rfl, hd⟩, hs, hp⟩

/-- How an instruction changes an existing pool record. -/
def Ix.poolEffect (p p' : PoolState) : Ix → Prop
  | .setAdmin => ∃ k, p' = { p with admin := k }
  | .setProtocolFee args => p' = { p with
      tradingProtocolFeeBps := args.newTradingProtocolFeeBps.getD p.tradingProtocolFeeBps
      lpProtocolFeeBps := args.newLpProtocolFeeBps.getD p.lpProtocolFeeBps }
  | .setProtocolFeeBeneficiary => ∃ k, p' = { p with protocolFeeBeneficiary := k }
  | .setPricingProgram => ∃ k, p' = { p with pricingProgram := k }
  | .setRebalanceAuthority => ∃ k, p' = { p with rebalanceAuthority := k }
  | .disablePool => p' = { p with isDisabled := 1 }
  | .enablePool => p' = { p with isDisabled := 0 }
  | .startRebalance _ => ∃ t, p' = { p with totalSolValue := t, isRebalancing := 1 }
  | .endRebalance => ∃ t, p' = { p with totalSolValue := t, isRebalancing := 0 }
  | .initialize => False
  | .syncSolValue _ => ∃ t, p' = { p with totalSolValue := t }
  | .swapExactIn _ => ∃ t, p' = { p with totalSolValue := t }
  | .swapExactOut _ => ∃ t, p' = { p with totalSolValue := t }
  | .addLiquidity _ => ∃ t, p' = { p with totalSolValue := t }
  | .removeLiquidity _ => ∃ t, p' = { p with totalSolValue := t }
  | .setSolValueCalculator _ => ∃ t, p' = { p with totalSolValue := t }
  | _ => p' = p

theorem CtlStep.poolEffect {cfg : Cfg} {tx : TxInfo} {w : World} {accs : List Acc} {c' : Ctl} {ix : Ix} {p : PoolState}
    (h : CtlStep cfg tx w accs c' ix) (hp : w.ctl.pool = some p) :
    ∃ p', c'.pool = some p' ∧ ix.poolEffect p p' := by
  have u : ∀ {q : PoolState}, w.ctl.pool = some q → q = p := by
    intro q hq; rw [hp] at hq; injection hq with hq; exact hq.symm
  cases ix with
  | syncSolValue i => obtain ⟨q, ⟨hq, _⟩, hs⟩ := h; obtain ⟨t, ht⟩ := hs.onlyValues.pool p hp; exact ⟨_, ht, t, rfl⟩
  | swapExactIn args => obtain ⟨q, s, _, _, _, hs⟩ := h; obtain ⟨t, ht⟩ := hs.onlyValues.pool p hp; exact ⟨_, ht, t, rfl⟩
  | swapExactOut args => obtain ⟨q, s, _, _, _, hs⟩ := h; obtain ⟨t, ht⟩ := hs.onlyValues.pool p hp; exact ⟨_, ht, t, rfl⟩
  | addLiquidity args => obtain ⟨q, s, _, _, _, hs⟩ := h; obtain ⟨t, ht⟩ := hs.onlyValues.pool p hp; exact ⟨_, ht, t, rfl⟩
  | removeLiquidity args => obtain ⟨q, _, hs⟩ := h; obtain ⟨t, ht⟩ := hs.onlyValues.pool p hp; exact ⟨_, ht, t, rfl⟩
  | disableLstInput i => obtain ⟨q, s, _, _, _, rfl⟩ := h; exact ⟨p, hp, rfl⟩
  | enableLstInput i => obtain ⟨q, s, _, _, _, rfl⟩ := h; exact ⟨p, hp, rfl⟩
  | addLst => obtain ⟨q, s, _, _, _, _, _, _, _, _, rfl⟩ := h; exact ⟨p, hp, rfl⟩
  | removeLst i => obtain ⟨q, s, _, _, _, _, rfl⟩ := h; exact ⟨p, hp, rfl⟩
  | setSolValueCalculator i =>
    obtain ⟨q, s, prog, _, _, _, _, hs⟩ := h; obtain ⟨t, ht⟩ := hs.onlyValues.pool p hp; exact ⟨_, ht, t, rfl⟩
  | setAdmin => obtain ⟨q, k, hq, _, rfl⟩ := h; cases u hq; exact ⟨_, rfl, k, rfl⟩
  | setProtocolFee args => obtain ⟨q, ⟨hq, _⟩, _, _, _, rfl⟩ := h; cases u hq; exact ⟨_, rfl, rfl⟩
  | setProtocolFeeBeneficiary => obtain ⟨q, k, ⟨hq, _⟩, _, rfl⟩ := h; cases u hq; exact ⟨_, rfl, k, rfl⟩
  | setPricingProgram => obtain ⟨q, k, ⟨hq, _⟩, _, _, rfl⟩ := h; cases u hq; exact ⟨_, rfl, k, rfl⟩
  | withdrawProtocolFees n => obtain ⟨q, _, _, rfl⟩ := h; exact ⟨p, hp, rfl⟩
  | addDisablePoolAuthority => obtain ⟨q, k, _, _, _, rfl⟩ := h; exact ⟨p, hp, rfl⟩
  | removeDisablePoolAuthority i => obtain ⟨q, k, _, _, _, rfl⟩ := h; exact ⟨p, hp, rfl⟩
  | disablePool => obtain ⟨q, ⟨hq, _⟩, _, rfl⟩ := h; cases u hq; exact ⟨_, rfl, rfl⟩
  | enablePool => obtain ⟨q, hq, _, _, rfl⟩ := h; cases u hq; exact ⟨_, rfl, rfl⟩
  | startRebalance args =>
    obtain ⟨q, s, c2, c3, p2, p3, dm, ⟨hq, _⟩, _, _, _, _, _, s2, _, s3, hp3, _, rfl⟩ := h
    obtain ⟨t, ht⟩ := (s2.trans s3).onlyValues.pool p hp
    rw [hp3] at ht; injection ht with ht; subst ht
    exact ⟨_, rfl, t, rfl⟩
  | endRebalance =>
    obtain ⟨q, rr, c1, p1, hq, _, _, _, hs, hp1, _, rfl⟩ := h
    cases u hq
    obtain ⟨t, ht⟩ := hs.onlyValues.pool _ rfl
    exact ⟨_, ht, t, rfl⟩
  | setRebalanceAuthority => obtain ⟨q, k, ⟨hq, _⟩, _, rfl⟩ := h; cases u hq; exact ⟨_, rfl, k, rfl⟩
  | «initialize» => obtain ⟨k, hq, _, rfl⟩ := h; rw [hp] at hq; cases hq

/-! ### C13 -/

/-- Trading, liquidity, rebalance and configuration instructions. -/
def Ix.TradesOrConfigures : Ix → Prop
  | .syncSolValue _ | .swapExactIn _ | .swapExactOut _ | .addLiquidity _ | .removeLiquidity _ => True
  | .startRebalance _ => True
  | .addLst | .removeLst _ => True
  | .setSolValueCalculator _ | .setPricingProgram => True
  | .disableLstInput _ | .enableLstInput _ => True
  | .setProtocolFee _ | .setProtocolFeeBeneficiary | .withdrawProtocolFees _ | .setRebalanceAuthority => True
  | .disablePool => True
  | .setAdmin | .addDisablePoolAuthority | .removeDisablePoolAuthority _ | .enablePool | .endRebalance | .initialize => False

theorem CtlStep.active {cfg : Cfg} {tx : TxInfo} {w : World} {accs : List Acc} {c' : Ctl} {ix : Ix}
    (h : CtlStep cfg tx w accs c' ix) (hn : ix.TradesOrConfigures) : ∃ p, w.ctl.Active p := by
  cases ix with
  | syncSolValue i => obtain ⟨p, ha, _⟩ := h; exact ⟨p, ha⟩
  | swapExactIn args => obtain ⟨p, s, ha, _⟩ := h; exact ⟨p, ha⟩
  | swapExactOut args => obtain ⟨p, s, ha, _⟩ := h; exact ⟨p, ha⟩
  | addLiquidity args => obtain ⟨p, s, ha, _⟩ := h; exact ⟨p, ha⟩
  | removeLiquidity args => obtain ⟨p, ha, _⟩ := h; exact ⟨p, ha⟩
  | disableLstInput i => obtain ⟨p, s, ha, _⟩ := h; exact ⟨p, ha⟩
  | enableLstInput i => obtain ⟨p, s, ha, _⟩ := h; exact ⟨p, ha⟩
  | addLst => obtain ⟨p, s, ha, _⟩ := h; exact ⟨p, ha⟩
  | removeLst i => obtain ⟨p, s, ha, _⟩ := h; exact ⟨p, ha⟩
  | setSolValueCalculator i => obtain ⟨p, s, prog, ha, _⟩ := h; exact ⟨p, ha⟩
  | setAdmin => exact hn.elim
  | setProtocolFee args => obtain ⟨p, ha, _⟩ := h; exact ⟨p, ha⟩
  | setProtocolFeeBeneficiary => obtain ⟨p, k, ha, _⟩ := h; exact ⟨p, ha⟩
  | setPricingProgram => obtain ⟨p, k, ha, _⟩ := h; exact ⟨p, ha⟩
  | withdrawProtocolFees n => obtain ⟨p, ha, _⟩ := h; exact ⟨p, ha⟩
  | addDisablePoolAuthority => exact hn.elim
  | removeDisablePoolAuthority i => exact hn.elim
  | disablePool => obtain ⟨p, ha, _⟩ := h; exact ⟨p, ha⟩
  | enablePool => exact hn.elim
  | startRebalance args => obtain ⟨p, s, c2, c3, p2, p3, dm, ha, _⟩ := h; exact ⟨p, ha⟩
  | endRebalance => exact hn.elim
  | setRebalanceAuthority => obtain ⟨p, k, ha, _⟩ := h; exact ⟨p, ha⟩
  | «initialize» => exact hn.elim

/-- C13: in any state whose pool is disabled or rebalancing, every trading or configuration instruction fails, whatever its
accounts, arguments and the behaviour of the programs it calls. -/
theorem C13_inactive_pool_refuses {cfg : Cfg} (L : RatioLib) (env : Env cfg) (tx : TxInfo) (w : World) (accs : List Acc)
    (ix : Ix) {p : PoolState} (hp : w.ctl.pool = some p) (hf : p.isDisabled ≠ 0 ∨ p.isRebalancing ≠ 0)
    (hn : ix.TradesOrConfigures) : ∃ err, processIx cfg L env tx w accs ix = .error err := by
  cases h : processIx cfg L env tx w accs ix with
  | error err => exact ⟨err, rfl⟩
  | ok w' =>
    obtain ⟨q, hq, hr, hd⟩ := (processIx_ctl h).active hn
    rw [hp] at hq; injection hq with hq; subst hq
    rcases hf with hf | hf
    · exact absurd hd hf
    · exact absurd hr hf

/-- C13 along histories: a controller call committed while the pool is disabled is a SetAdmin, a change of the disable
authorities or an EnablePool; committed while it is rebalancing, a SetAdmin, a change of the disable authorities or the
EndRebalance. -/
theorem C13_committed_while_inactive {cfg : Cfg} {L : RatioLib} {w₀ : World} (hf : World.Fresh cfg w₀)
    {h : List (Tx cfg)} {e : Event cfg} (he : e ∈ historyEvents L w₀ h) {accs : List Acc} {ix : Ix} (hx : e.IsIx accs ix)
    {p : PoolState} (hp : e.pre.ctl.pool = some p) :
    (p.isDisabled ≠ 0 → ix = .setAdmin ∨ ix = .addDisablePoolAuthority ∨ (∃ i, ix = .removeDisablePoolAuthority i) ∨
      ix = .enablePool) ∧
    (p.isRebalancing ≠ 0 → ix = .setAdmin ∨ ix = .addDisablePoolAuthority ∨
      (∃ i, ix = .removeDisablePoolAuthority i) ∨ ix = .endRebalance) := by
  obtain ⟨env, hpr, _⟩ := hx.process he
  have hi := ((history_inv hf h).1 e he).1.ctl.flags p hp
  have hc := processIx_ctl hpr
  have key : ix.TradesOrConfigures → p.isDisabled = 0 ∧ p.isRebalancing = 0 := by
    intro hn
    obtain ⟨q, hq, hr, hd⟩ := hc.active hn
    rw [hp] at hq; injection hq with hq; subst hq; exact ⟨hd, hr⟩
  have u : ∀ {q : PoolState}, e.pre.ctl.pool = some q → q = p := by
    intro q hq; rw [hp] at hq; injection hq with hq; exact hq.symm
  constructor
  · intro hd
    cases ix with
    | setAdmin => exact .inl rfl
    | addDisablePoolAuthority => exact .inr (.inl rfl)
    | removeDisablePoolAuthority i => exact .inr (.inr (.inl ⟨i, rfl⟩))
    | enablePool => exact .inr (.inr (.inr rfl))
    | endRebalance => obtain ⟨q, rr, c1, p1, hq, hr, _⟩ := hc; cases u hq; omega
    | «initialize» => obtain ⟨k, hq, _⟩ := hc; rw [hp] at hq; cases hq
    | _ => exact absurd (key trivial).1 hd
  · intro hd
    cases ix with
    | setAdmin => exact .inl rfl
    | addDisablePoolAuthority => exact .inr (.inl rfl)
    | removeDisablePoolAuthority i => exact .inr (.inr (.inl ⟨i, rfl⟩))
    | enablePool => obtain ⟨q, hq, hr, _⟩ := hc; cases u hq; omega
    | endRebalance => exact .inr (.inr (.inr rfl))
    | «initialize» => obtain ⟨k, hq, _⟩ := hc; rw [hp] at hq; cases hq
    | _ => exact absurd (key trivial).2 hd

-- After `tDisable` (13th transaction of `hist2`) the pool is disabled and a deposit that worked before fails.
example : (Ex.st2 13).ctl.pool.map (·.isDisabled) = some 1 ∧
    ((Ex.tDepA.run .ex (Ex.st2 13)).toOption.map fun _ => ()) = none ∧
    ((Ex.tDepA.run .ex (Ex.st2 14)).toOption.map fun _ => ()) = some () := by decide +kernel

/-! ### C14 -/

/-- Who has to sign an instruction, given the pool record and the disable authorities. -/
def Ix.AuthorizedBy (cfg : Cfg) (p : Option PoolState) (auths : List Pubkey) (accs : List Acc) : Ix → Prop
  | .disableLstInput _ | .enableLstInput _ | .addLst | .removeLst _ | .setSolValueCalculator _ | .setAdmin
  | .setProtocolFee _ | .setPricingProgram | .addDisablePoolAuthority | .enablePool =>
    ∃ q, p = some q ∧ SignedBy accs q.admin
  | .setProtocolFeeBeneficiary | .withdrawProtocolFees _ => ∃ q, p = some q ∧ SignedBy accs q.protocolFeeBeneficiary
  | .removeDisablePoolAuthority i =>
    ∃ q, p = some q ∧ (SignedBy accs q.admin ∨ ∃ k, auths[i]? = some k ∧ SignedBy accs k)
  | .disablePool => ∃ q, p = some q ∧ (SignedBy accs q.admin ∨ ∃ k ∈ auths, SignedBy accs k)
  | .startRebalance _ | .endRebalance => ∃ q, p = some q ∧ SignedBy accs q.rebalanceAuthority
  | .setRebalanceAuthority => ∃ q, p = some q ∧ (SignedBy accs q.admin ∨ SignedBy accs q.rebalanceAuthority)
  | .initialize => SignedBy accs cfg.initialAuthority
  -- permissionless
  | .syncSolValue _ | .swapExactIn _ | .swapExactOut _ | .addLiquidity _ | .removeLiquidity _ => True

/-- C14: every successful instruction carries the signature its kind needs. -/
theorem C14_authorized {cfg : Cfg} {L : RatioLib} {env : Env cfg} {tx : TxInfo} {w w' : World} {accs : List Acc} {ix : Ix}
    (h : processIx cfg L env tx w accs ix = .ok w') : ix.AuthorizedBy cfg w.ctl.pool w.ctl.auths accs := by
  have hc := processIx_ctl h
  cases ix with
  | syncSolValue i => trivial
  | swapExactIn args => trivial
  | swapExactOut args => trivial
  | addLiquidity args => trivial
  | removeLiquidity args => trivial
  | disableLstInput i => obtain ⟨p, s, ha, hs, _⟩ := hc; exact ⟨p, ha.1, hs⟩
  | enableLstInput i => obtain ⟨p, s, ha, hs, _⟩ := hc; exact ⟨p, ha.1, hs⟩
  | addLst => obtain ⟨p, s, ha, hs, _⟩ := hc; exact ⟨p, ha.1, hs⟩
  | removeLst i => obtain ⟨p, s, ha, hs, _⟩ := hc; exact ⟨p, ha.1, hs⟩
  | setSolValueCalculator i => obtain ⟨p, s, prog, ha, hs, _⟩ := hc; exact ⟨p, ha.1, hs⟩
  | setAdmin => obtain ⟨p, k, hp, hs, _⟩ := hc; exact ⟨p, hp, hs⟩
  | setProtocolFee args => obtain ⟨p, ha, hs, _⟩ := hc; exact ⟨p, ha.1, hs⟩
  | setProtocolFeeBeneficiary => obtain ⟨p, k, ha, hs, _⟩ := hc; exact ⟨p, ha.1, hs⟩
  | setPricingProgram => obtain ⟨p, k, ha, hs, _⟩ := hc; exact ⟨p, ha.1, hs⟩
  | withdrawProtocolFees n => obtain ⟨p, ha, hs, _⟩ := hc; exact ⟨p, ha.1, hs⟩
  | addDisablePoolAuthority => obtain ⟨p, k, hp, hs, _⟩ := hc; exact ⟨p, hp, hs⟩
  | removeDisablePoolAuthority i =>
    obtain ⟨p, k, hp, hk, hs, _⟩ := hc; exact ⟨p, hp, hs.imp id fun hs => ⟨k, hk, hs⟩⟩
  | disablePool => obtain ⟨p, ha, hs, _⟩ := hc; exact ⟨p, ha.1, hs⟩
  | enablePool => obtain ⟨p, hp, _, hs, _⟩ := hc; exact ⟨p, hp, hs⟩
  | startRebalance args => obtain ⟨p, s, c2, c3, p2, p3, dm, ha, hs, _⟩ := hc; exact ⟨p, ha.1, hs⟩
  | endRebalance => obtain ⟨p, rr, c1, p1, hp, _, _, hs, _⟩ := hc; exact ⟨p, hp, hs⟩
  | setRebalanceAuthority => obtain ⟨p, k, ha, hs, _⟩ := hc; exact ⟨p, ha.1, hs⟩
  | «initialize» => obtain ⟨k, _, hs, _⟩ := hc; exact hs

/-- C14 along histories. -/
theorem C14_history {cfg : Cfg} {L : RatioLib} {w₀ : World} {h : List (Tx cfg)} {e : Event cfg}
    (he : e ∈ historyEvents L w₀ h) {accs : List Acc} {ix : Ix} (hx : e.IsIx accs ix) :
    ix.AuthorizedBy cfg e.pre.ctl.pool e.pre.ctl.auths accs := by
  obtain ⟨env, hpr, _⟩ := hx.process he
  exact C14_authorized hpr

-- The same instruction without the signature fails: SetAdmin signed by somebody else, or passed unsigned.
example : ((Tx.run .ex (Ex.st2 24) Ex.tSetAdmin).toOption.map fun w => w.ctl.pool.map (·.admin)) = some (some 63) ∧
    ((Tx.run .ex (Ex.st2 24) [Ex.call [Ex.ro 6, Ex.ro 63, Ex.rw 1] .setAdmin]).toOption.map fun _ => ()) = none ∧
    ((Tx.run .ex (Ex.st2 24) [Ex.call [Ex.sg 40, Ex.ro 63, Ex.rw 1] .setAdmin]).toOption.map fun _ => ()) = none := by
  decide +kernel

/-! ### C15 -/

/-- The pool record of a committed action: kept in existence, and changed as its instruction says. -/
theorem event_pool {cfg : Cfg} {L : RatioLib} {w₀ : World} {h : List (Tx cfg)} {e : Event cfg}
    (he : e ∈ historyEvents L w₀ h) {p : PoolState} (hp : e.pre.ctl.pool = some p) :
    ∃ p', e.post.ctl.pool = some p' ∧
      (p' = p ∨ ∃ accs ix, e.IsIx accs ix ∧ ix.AuthorizedBy cfg (some p) e.pre.ctl.auths accs ∧ ix.poolEffect p p') := by
  rcases event_cases he with ⟨hc, _⟩ | ⟨env, accs, ix, hx, _, hpr⟩
  · exact ⟨p, by rw [hc]; exact hp, .inl rfl⟩
  · obtain ⟨p', hp', hpe⟩ := (processIx_ctl hpr).poolEffect hp
    have := C14_authorized hpr
    rw [hp] at this
    exact ⟨p', hp', .inr ⟨accs, ix, hx, this, hpe⟩⟩

/-- C15: over any history, across every committed action: the pool keeps existing, its LP mint and version never change;
the admin changes only in a SetAdmin signed by the current admin; the fee beneficiary only in a SetProtocolFeeBeneficiary
signed by the current beneficiary; the rebalance authority only in a SetRebalanceAuthority signed by the admin or the
current rebalance authority; pricing program and fee rates only in the instructions for it, signed by the admin. -/
theorem C15_authorities {cfg : Cfg} {L : RatioLib} {w₀ : World} {h : List (Tx cfg)} {e : Event cfg}
    (he : e ∈ historyEvents L w₀ h) {p : PoolState} (hp : e.pre.ctl.pool = some p) :
    ∃ p', e.post.ctl.pool = some p' ∧ p'.lpTokenMint = p.lpTokenMint ∧ p'.version = p.version ∧
      (p'.admin ≠ p.admin → ∃ accs, e.IsIx accs .setAdmin ∧ SignedBy accs p.admin) ∧
      (p'.protocolFeeBeneficiary ≠ p.protocolFeeBeneficiary →
        ∃ accs, e.IsIx accs .setProtocolFeeBeneficiary ∧ SignedBy accs p.protocolFeeBeneficiary) ∧
      (p'.rebalanceAuthority ≠ p.rebalanceAuthority →
        ∃ accs, e.IsIx accs .setRebalanceAuthority ∧ (SignedBy accs p.admin ∨ SignedBy accs p.rebalanceAuthority)) ∧
      (p'.pricingProgram ≠ p.pricingProgram → ∃ accs, e.IsIx accs .setPricingProgram ∧ SignedBy accs p.admin) ∧
      (p'.tradingProtocolFeeBps ≠ p.tradingProtocolFeeBps ∨ p'.lpProtocolFeeBps ≠ p.lpProtocolFeeBps →
        ∃ accs args, e.IsIx accs (.setProtocolFee args) ∧ SignedBy accs p.admin ∧
          p'.tradingProtocolFeeBps = args.newTradingProtocolFeeBps.getD p.tradingProtocolFeeBps ∧
          p'.lpProtocolFeeBps = args.newLpProtocolFeeBps.getD p.lpProtocolFeeBps) := by
  obtain ⟨p', hp', hor⟩ := event_pool he hp
  refine ⟨p', hp', ?_⟩
  rcases hor with rfl | ⟨accs, ix, hx, ha, hpe⟩
  · simp
  · cases ix with
    | setAdmin =>
      obtain ⟨k, rfl⟩ := hpe
      obtain ⟨q, hq, hs⟩ := ha
      injection hq with hq; subst hq
      exact ⟨rfl, rfl, fun _ => ⟨accs, hx, hs⟩, by simp, by simp, by simp, by simp⟩
    | setProtocolFee args =>
      subst hpe
      obtain ⟨q, hq, hs⟩ := ha
      injection hq with hq; subst hq
      exact ⟨rfl, rfl, by simp, by simp, by simp, by simp, fun _ => ⟨accs, args, hx, hs, rfl, rfl⟩⟩
    | setProtocolFeeBeneficiary =>
      obtain ⟨k, rfl⟩ := hpe
      obtain ⟨q, hq, hs⟩ := ha
      injection hq with hq; subst hq
      exact ⟨rfl, rfl, by simp, fun _ => ⟨accs, hx, hs⟩, by simp, by simp, by simp⟩
    | setPricingProgram =>
      obtain ⟨k, rfl⟩ := hpe
      obtain ⟨q, hq, hs⟩ := ha
      injection hq with hq; subst hq
      exact ⟨rfl, rfl, by simp, by simp, by simp, fun _ => ⟨accs, hx, hs⟩, by simp⟩
    | setRebalanceAuthority =>
      obtain ⟨k, rfl⟩ := hpe
      obtain ⟨q, hq, hs⟩ := ha
      injection hq with hq; subst hq
      exact ⟨rfl, rfl, by simp, by simp, fun _ => ⟨accs, hx, hs⟩, by simp, by simp⟩
    | disablePool => subst hpe; simp
    | enablePool => subst hpe; simp
    | startRebalance args => obtain ⟨t, rfl⟩ := hpe; simp
    | endRebalance => obtain ⟨t, rfl⟩ := hpe; simp
    | «initialize» => exact hpe.elim
    | syncSolValue i => obtain ⟨t, rfl⟩ := hpe; simp
    | swapExactIn args => obtain ⟨t, rfl⟩ := hpe; simp
    | swapExactOut args => obtain ⟨t, rfl⟩ := hpe; simp
    | addLiquidity args => obtain ⟨t, rfl⟩ := hpe; simp
    | removeLiquidity args => obtain ⟨t, rfl⟩ := hpe; simp
    | setSolValueCalculator i => obtain ⟨t, rfl⟩ := hpe; simp
    | disableLstInput i => cases hpe; simp
    | enableLstInput i => cases hpe; simp
    | addLst => cases hpe; simp
    | removeLst i => cases hpe; simp
    | withdrawProtocolFees n => cases hpe; simp
    | addDisablePoolAuthority => cases hpe; simp
    | removeDisablePoolAuthority i => cases hpe; simp

/-- The values taken: the account in the second position of the instruction. -/
theorem C15_new_values {cfg : Cfg} {L : RatioLib} {env : Env cfg} {tx : TxInfo} {w w' : World} {accs : List Acc} {ix : Ix}
    (h : processIx cfg L env tx w accs ix = .ok w') :
    (ix = .setAdmin → ∃ a p, accs[1]? = some a ∧ w'.ctl.pool = some p ∧ p.admin = a.key) ∧
    (ix = .setProtocolFeeBeneficiary → ∃ a p, accs[1]? = some a ∧ w'.ctl.pool = some p ∧ p.protocolFeeBeneficiary = a.key) ∧
    (ix = .setRebalanceAuthority → ∃ a p, accs[1]? = some a ∧ w'.ctl.pool = some p ∧ p.rebalanceAuthority = a.key) ∧
    (ix = .setPricingProgram → ∃ a p, accs[1]? = some a ∧ w'.ctl.pool = some p ∧ p.pricingProgram = a.key ∧
      w.led.exec a.key = true) := by
  refine ⟨?_, ?_, ?_, ?_⟩
  · rintro rfl
    obtain ⟨a, p, hl, _, _, _, rfl⟩ := processSetAdmin_inv h
    unfold SetAdminAccs.load at hl; split at hl
    · injection hl with hl; subst hl; exact ⟨_, _, rfl, rfl, rfl⟩
    · cases hl
  · rintro rfl
    obtain ⟨a, p, hl, _, _, _, _, _, rfl⟩ := processSetBeneficiary_inv h
    unfold SetBeneficiaryAccs.load at hl; split at hl
    · injection hl with hl; subst hl; exact ⟨_, _, rfl, rfl, rfl⟩
    · cases hl
  · rintro rfl
    obtain ⟨a, p, hl, _, _, _, _, _, rfl⟩ := processSetRebAuth_inv h
    unfold SetRebAuthAccs.load at hl; split at hl
    · injection hl with hl; subst hl; exact ⟨_, _, rfl, rfl, rfl⟩
    · cases hl
  · rintro rfl
    obtain ⟨a, p, hl, _, _, _, _, _, hex, rfl⟩ := processSetPricing_inv h
    unfold SetPricingAccs.load at hl; split at hl
    · injection hl with hl; subst hl; exact ⟨_, _, rfl, rfl, rfl, hex⟩
    · cases hl

-- `hist2` changes all of them.
example : ((Ex.st2 25).ctl.pool.map fun p => (p.admin, p.protocolFeeBeneficiary, p.rebalanceAuthority, p.pricingProgram,
      p.tradingProtocolFeeBps)) = some (63, 61, 62, 33, 2000) ∧
    ((Ex.st2 9).ctl.pool.map fun p => (p.admin, p.protocolFeeBeneficiary, p.rebalanceAuthority, p.pricingProgram,
      p.tradingProtocolFeeBps)) = some (6, 6, 6, 7, 1000) := by decide +kernel

end S
