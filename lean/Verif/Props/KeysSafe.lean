import Verif.Props.Lists
import Verif.Props.Custody
import Verif.Props.System
import Verif.Props.Impact

/-!
C103: a key that does not sign protects what it controls. Over any history in which the holder of a role signs nothing (its key is kept in a safe, say, while
every other key may be stolen), what the role controls does not change, and the role's holder stays the same.
-/

set_option autoImplicit false

namespace S

section
variable {cfg : Cfg} {L : RatioLib} {w : World} {h : List (Tx cfg)}

/-- No committed instruction of the controller was signed by `k`. -/
def Unsigned (k : Pubkey) (es : List (Event cfg)) : Prop := ∀ e ∈ es, ∀ accs ix, e.IsIx accs ix → ¬ SignedBy accs k

/-- What is configured for a listed LST. -/
def LstState.setup (s : LstState) : Pubkey × Pubkey × Nat × Nat × Nat :=
  (s.mint, s.solValueCalculator, s.isInputDisabled, s.poolReservesBump, s.protocolFeeAccumulatorBump)

/-! ### Proofs -/

theorem setup_of_config {l l' : List LstState} (he : l'.map LstState.config = l.map LstState.config) : l'.map LstState.setup = l.map LstState.setup := by
  have : LstState.setup = LstState.setup ∘ LstState.config := by funext s; rfl
  rw [this, ← List.map_map, ← List.map_map, he]

/-- An invariant of the events of a history. -/
theorem events_inv {P : World → Prop} {es : List (Event cfg)} {w w' : World} (hc : Chain w es w') (hstep : ∀ e ∈ es, P e.pre → P e.post) (h : P w) :
    (∀ e ∈ es, P e.pre) ∧ P w' := by
  induction hc with
  | nil => exact ⟨by simp, h⟩
  | @cons w' e es _ ih =>
    rw [List.forall_mem_cons] at hstep
    obtain ⟨a, b⟩ := ih hstep.2 (hstep.1 h)
    exact ⟨by rw [List.forall_mem_cons]; exact ⟨h, a⟩, b⟩

theorem history_events_inv {P : World → Prop} (hstep : ∀ e ∈ historyEvents L w h, P e.pre → P e.post) (h0 : P w) :
    (∀ e ∈ historyEvents L w h, P e.pre) ∧ P (runHistory L w h) := events_inv (historyEvents_chain L w h).1 hstep h0

/-- Without the admin's signature the list of LSTs only changes in its values. -/
theorem CtlStep.lsts_unsigned {tx : TxInfo} {w : World} {accs : List Acc} {c' : Ctl} {ix : Ix} {p : PoolState}
    (h : CtlStep cfg tx w accs c' ix) (hp : w.ctl.pool = some p) (hn : ¬ SignedBy accs p.admin) : c'.lsts.map LstState.config = w.ctl.lsts.map LstState.config := by
  have no : ∀ {q : PoolState}, w.ctl.pool = some q → SignedBy accs q.admin → False := fun hq hs => by rw [hp] at hq; cases hq; exact hn hs
  cases ix with
  | syncSolValue i => obtain ⟨p, _, hy⟩ := h; exact hy.onlyValues.lsts
  | swapExactIn args => obtain ⟨p, _, _, _, _, hy⟩ := h; exact hy.onlyValues.lsts
  | swapExactOut args => obtain ⟨p, _, _, _, _, hy⟩ := h; exact hy.onlyValues.lsts
  | addLiquidity args => obtain ⟨p, _, _, _, _, hy⟩ := h; exact hy.onlyValues.lsts
  | removeLiquidity args => obtain ⟨p, _, hy⟩ := h; exact hy.onlyValues.lsts
  | disableLstInput i => obtain ⟨p, x, ha, hs, _⟩ := h; exact (no ha.1 hs).elim
  | enableLstInput i => obtain ⟨p, x, ha, hs, _⟩ := h; exact (no ha.1 hs).elim
  | addLst => obtain ⟨p, x, ha, hs, _⟩ := h; exact (no ha.1 hs).elim
  | removeLst i => obtain ⟨p, x, ha, hs, _⟩ := h; exact (no ha.1 hs).elim
  | setSolValueCalculator i => obtain ⟨p, x, prog, ha, hs, _⟩ := h; exact (no ha.1 hs).elim
  | setAdmin => obtain ⟨p, k, _, _, rfl⟩ := h; rfl
  | setProtocolFee args => obtain ⟨p, _, _, _, _, rfl⟩ := h; rfl
  | setProtocolFeeBeneficiary => obtain ⟨p, k, _, _, rfl⟩ := h; rfl
  | setPricingProgram => obtain ⟨p, k, _, _, _, rfl⟩ := h; rfl
  | withdrawProtocolFees n => obtain ⟨p, _, _, rfl⟩ := h; rfl
  | addDisablePoolAuthority => obtain ⟨p, k, _, _, _, rfl⟩ := h; rfl
  | removeDisablePoolAuthority i => obtain ⟨p, k, _, _, _, rfl⟩ := h; rfl
  | disablePool => obtain ⟨p, _, _, rfl⟩ := h; rfl
  | enablePool => obtain ⟨p, _, _, _, rfl⟩ := h; rfl
  | startRebalance args =>
    obtain ⟨p, x, c2, c3, p2, p3, dm, _, _, _, _, _, _, s2, _, s3, _, _, rfl⟩ := h
    exact (s2.trans s3).onlyValues.lsts
  | endRebalance =>
    obtain ⟨p, rr, c1, p1, _, _, _, _, hy, _, _, rfl⟩ := h
    exact hy.onlyValues.lsts
  | setRebalanceAuthority => obtain ⟨p, k, _, _, rfl⟩ := h; rfl
  | «initialize» => obtain ⟨k, _, _, rfl⟩ := h; rfl

/-! ### The roles -/

/-- While the admin signs nothing: it stays the admin, and pricing program, protocol fee rates, the list of LSTs with their calculators, input flags and
accounts, and the LP mint stay what they are; nobody joins the disable authorities, and a disabled pool stays disabled. -/
theorem C103_admin {p : PoolState} (hp : w.ctl.pool = some p) (hn : Unsigned p.admin (historyEvents L w h)) :
    ∃ p', (runHistory L w h).ctl.pool = some p' ∧ p'.admin = p.admin ∧ p'.pricingProgram = p.pricingProgram ∧
      p'.tradingProtocolFeeBps = p.tradingProtocolFeeBps ∧ p'.lpProtocolFeeBps = p.lpProtocolFeeBps ∧ p'.lpTokenMint = p.lpTokenMint ∧
      (runHistory L w h).ctl.lsts.map LstState.setup = w.ctl.lsts.map LstState.setup ∧ List.Sublist (runHistory L w h).ctl.auths w.ctl.auths ∧
      (p.isDisabled ≠ 0 → p'.isDisabled ≠ 0) := by
  refine (history_events_inv (L := L) (w := w) (h := h) (P := fun x => ∃ p', x.ctl.pool = some p' ∧ p'.admin = p.admin ∧ p'.pricingProgram = p.pricingProgram ∧
      p'.tradingProtocolFeeBps = p.tradingProtocolFeeBps ∧ p'.lpProtocolFeeBps = p.lpProtocolFeeBps ∧ p'.lpTokenMint = p.lpTokenMint ∧
      x.ctl.lsts.map LstState.setup = w.ctl.lsts.map LstState.setup ∧ List.Sublist x.ctl.auths w.ctl.auths ∧
      (p.isDisabled ≠ 0 → p'.isDisabled ≠ 0)) ?_ ⟨p, hp, rfl, rfl, rfl, rfl, rfl, rfl, .refl _, id⟩).2
  rintro e he ⟨q, hq, a1, a2, a3, a4, a5, a6, a7, a8⟩
  have hno : ∀ accs ix, e.IsIx accs ix → ¬ SignedBy accs q.admin := by rw [a1]; exact hn e he
  obtain ⟨q', hq', b5, -, b1, -, -, b2, b3⟩ := C15_authorities he hq
  refine ⟨q', hq', ?_, ?_, ?_, ?_, b5.trans a5, ?_, ?_, ?_⟩
  · rw [← a1]; by_contra hc; obtain ⟨accs, hx, hs⟩ := b1 hc; exact hno _ _ hx hs
  · rw [← a2]; by_contra hc; obtain ⟨accs, hx, hs⟩ := b2 hc; exact hno _ _ hx hs
  · rw [← a3]; by_contra hc; obtain ⟨accs, _, hx, hs, -⟩ := b3 (.inl hc); exact hno _ _ hx hs
  · rw [← a4]; by_contra hc; obtain ⟨accs, _, hx, hs, -⟩ := b3 (.inr hc); exact hno _ _ hx hs
  · rw [← a6]
    rcases event_cases he with ⟨hc, -⟩ | ⟨env, accs, ix, hx, -, hpr⟩
    · rw [hc]
    · exact setup_of_config ((processIx_ctl hpr).lsts_unsigned hq (hno accs ix hx))
  · rcases C18_changes he with h1 | ⟨accs, k, p1, hx, hp1, hs, -⟩ | ⟨accs, i, k, p1, -, -, -, -, h1⟩
    · rw [h1]; exact a7
    · rw [hq] at hp1; cases hp1; exact (hno _ _ hx hs).elim
    · rw [h1]; exact (List.eraseIdx_sublist _ _).trans a7
  · intro h0
    by_cases hc : q'.isDisabled = q.isDisabled
    · rw [hc]; exact a8 h0
    · obtain ⟨accs, ⟨-, h1, -⟩ | ⟨hx, -, hs⟩⟩ := C48_flag_changes he hq hq' hc
      · rw [h1]; decide
      · exact (hno _ _ hx hs).elim

/-- While the admin signs nothing, the terms of trade stay: whatever happens before a swap (trades, rebalances, fee withdrawals, transfers of other roles,
movements of tokens), a swap of an exact amount in that would have been executed at the start moves the same amounts when it is executed at the end, as long as the
calculators and the pricing program give the same answers. -/
theorem C103_terms_in {f : Pubkey → List Acc → CalcReq → R Range} {g : Pubkey → List Acc → PriceReq → R Nat} {tx₁ tx₂ : TxInfo} {w₁ w₂ : World} {p : PoolState}
    {accs : List Acc} {args : SwapExactInArgs} (hp : w.ctl.pool = some p) (hn : Unsigned p.admin (historyEvents L w h))
    (h₁ : processIx cfg L (.pure cfg f g) tx₁ w accs (.swapExactIn args) = .ok w₁)
    (h₂ : processIx cfg L (.pure cfg f g) tx₂ (runHistory L w h) accs (.swapExactIn args) = .ok w₂) :
    ∃ (srcAcc dstAcc feeAcc srcRes dstRes : Acc) (out fee : Nat),
      accs[3]? = some srcAcc ∧ accs[4]? = some dstAcc ∧ accs[5]? = some feeAcc ∧ accs[10]? = some srcRes ∧ accs[11]? = some dstRes ∧
      (∀ k, bal w₁.led k + only srcAcc.key args.amount k + only dstRes.key (out + fee) k =
        bal w.led k + only srcRes.key args.amount k + only dstAcc.key out k + only feeAcc.key fee k) ∧
      (∀ k, bal w₂.led k + only srcAcc.key args.amount k + only dstRes.key (out + fee) k =
        bal (runHistory L w h).led k + only srcRes.key args.amount k + only dstAcc.key out k + only feeAcc.key fee k) := by
  obtain ⟨out, fee₁, fee₂, p₁, p₂, ⟨src, dst, signer, srcAcc, dstAcc, feeAcc, srcRes, dstRes, m₁⟩, ⟨src', dst', signer', srcAcc', dstAcc', feeAcc', srcRes', dstRes', m₂⟩, hf⟩ :=
    C78_swapExactIn h₁ h₂ ⟨rfl, rfl, rfl⟩ rfl ⟨rfl, rfl⟩
  obtain ⟨p', hp', -, -, hb, -⟩ := C103_admin hp hn
  have e1 := m₁.pool; rw [hp] at e1; cases e1
  have e2 := m₂.pool; rw [hp'] at e2; cases e2
  obtain rfl := hf hb.symm
  have q3 := m₂.pos3; rw [m₁.pos3] at q3; cases q3
  have q4 := m₂.pos4; rw [m₁.pos4] at q4; cases q4
  have q5 := m₂.pos5; rw [m₁.pos5] at q5; cases q5
  have q10 := m₂.pos10; rw [m₁.pos10] at q10; cases q10
  have q11 := m₂.pos11; rw [m₁.pos11] at q11; cases q11
  exact ⟨srcAcc, dstAcc, feeAcc, srcRes, dstRes, out, fee₁, m₁.pos3, m₁.pos4, m₁.pos5, m₁.pos10, m₁.pos11, m₁.moves, m₂.moves⟩

/-- The same for a swap of an exact amount out. -/
theorem C103_terms_out {f : Pubkey → List Acc → CalcReq → R Range} {g : Pubkey → List Acc → PriceReq → R Nat} {tx₁ tx₂ : TxInfo} {w₁ w₂ : World} {p : PoolState}
    {accs : List Acc} {args : SwapExactOutArgs} (hp : w.ctl.pool = some p) (hn : Unsigned p.admin (historyEvents L w h))
    (h₁ : processIx cfg L (.pure cfg f g) tx₁ w accs (.swapExactOut args) = .ok w₁)
    (h₂ : processIx cfg L (.pure cfg f g) tx₂ (runHistory L w h) accs (.swapExactOut args) = .ok w₂) :
    ∃ (srcAcc dstAcc feeAcc srcRes dstRes : Acc) (inp fee : Nat),
      accs[3]? = some srcAcc ∧ accs[4]? = some dstAcc ∧ accs[5]? = some feeAcc ∧ accs[10]? = some srcRes ∧ accs[11]? = some dstRes ∧
      (∀ k, bal w₁.led k + only srcAcc.key inp k + only dstRes.key (args.amount + fee) k =
        bal w.led k + only srcRes.key inp k + only dstAcc.key args.amount k + only feeAcc.key fee k) ∧
      (∀ k, bal w₂.led k + only srcAcc.key inp k + only dstRes.key (args.amount + fee) k =
        bal (runHistory L w h).led k + only srcRes.key inp k + only dstAcc.key args.amount k + only feeAcc.key fee k) := by
  obtain ⟨inp, fee₁, fee₂, p₁, p₂, ⟨src, dst, signer, srcAcc, dstAcc, feeAcc, srcRes, dstRes, m₁⟩, ⟨src', dst', signer', srcAcc', dstAcc', feeAcc', srcRes', dstRes', m₂⟩, hf⟩ :=
    C78_swapExactOut h₁ h₂ ⟨rfl, rfl, rfl⟩ rfl ⟨rfl, rfl⟩
  obtain ⟨p', hp', -, -, hb, -⟩ := C103_admin hp hn
  have e1 := m₁.pool; rw [hp] at e1; cases e1
  have e2 := m₂.pool; rw [hp'] at e2; cases e2
  obtain rfl := hf hb.symm
  have q3 := m₂.pos3; rw [m₁.pos3] at q3; cases q3
  have q4 := m₂.pos4; rw [m₁.pos4] at q4; cases q4
  have q5 := m₂.pos5; rw [m₁.pos5] at q5; cases q5
  have q10 := m₂.pos10; rw [m₁.pos10] at q10; cases q10
  have q11 := m₂.pos11; rw [m₁.pos11] at q11; cases q11
  exact ⟨srcAcc, dstAcc, feeAcc, srcRes, dstRes, inp, fee₁, m₁.pos3, m₁.pos4, m₁.pos5, m₁.pos10, m₁.pos11, m₁.moves, m₂.moves⟩

/-- While the protocol fee beneficiary signs nothing: it stays the beneficiary, and no account of the protocol fees loses anything. -/
theorem C103_beneficiary {p : PoolState} (hp : w.ctl.pool = some p) (hn : Unsigned p.protocolFeeBeneficiary (historyEvents L w h)) :
    (∃ p', (runHistory L w h).ctl.pool = some p' ∧ p'.protocolFeeBeneficiary = p.protocolFeeBeneficiary) ∧
    ∀ k a, w.led.tok k = some a → a.owner = cfg.protocolFee → a.amount ≤ bal (runHistory L w h).led k := by
  have hb : ∀ e ∈ historyEvents L w h, (∃ p', e.pre.ctl.pool = some p' ∧ p'.protocolFeeBeneficiary = p.protocolFeeBeneficiary) →
      ∃ p', e.post.ctl.pool = some p' ∧ p'.protocolFeeBeneficiary = p.protocolFeeBeneficiary := by
    rintro e he ⟨q, hq, a1⟩
    obtain ⟨q', hq', -, -, -, b1, -⟩ := C15_authorities he hq
    refine ⟨q', hq', ?_⟩
    rw [← a1]; by_contra hc; obtain ⟨accs, hx, hs⟩ := b1 hc
    rw [a1] at hs; exact hn e he _ _ hx hs
  obtain ⟨hall, hend⟩ := history_events_inv (P := fun x => ∃ p', x.ctl.pool = some p' ∧ p'.protocolFeeBeneficiary = p.protocolFeeBeneficiary) hb ⟨p, hp, rfl⟩
  refine ⟨hend, fun k a hk ho => ?_⟩
  have := (history_events_inv (L := L) (w := w) (h := h) (P := fun x => a.amount = 0 ∨ ∃ b, x.led.tok k = some b ∧ b.owner = cfg.protocolFee ∧ a.amount ≤ b.amount)
    ?_ (.inr ⟨a, hk, ho, Nat.le_refl _⟩)).2
  · rcases this with h0 | ⟨b, hb, -, hle⟩
    · rw [h0]; exact Nat.zero_le _
    · rw [bal_some hb]; exact hle
  · rintro e he (h0 | ⟨b, hb, hbo, hle⟩)
    · exact .inl h0
    · rcases event_cases he with ⟨-, hx, -⟩ | ⟨env, accs, ix, hx, hs, hpr⟩
      · obtain ⟨n, hn, hpost⟩ := hx.tok k b hb (.inr hbo)
        exact .inr ⟨_, hpost, hbo, hle.trans hn⟩
      · rcases ctrl_account_ix hs hpr hb (.inr hbo) with ⟨n, hpost, hfall⟩ | ⟨-, h0, -⟩
        · refine .inr ⟨_, hpost, hbo, ?_⟩
          by_contra hc
          have hlt : bal e.post.led k < b.amount := by rw [bal_some hpost]; exact Nat.lt_of_lt_of_le (Nat.lt_of_not_le hc) hle
          obtain ⟨accs', n', q, _, _, hx', hq, hsig, -⟩ := C20_fees_leave he hb hbo hlt
          obtain ⟨q', hq', hben⟩ := hall e he
          rw [hq] at hq'; cases hq'
          rw [hben] at hsig
          exact hn e he _ _ hx' hsig
        · exact .inl (by omega)

/-- While neither the rebalance authority nor the admin signs anything: the rebalance authority stays, no rebalance starts or ends, and the pool's reserves
leave only by swaps and redemptions. -/
theorem C103_rebalance {p : PoolState} (hp : w.ctl.pool = some p) (hr : Unsigned p.rebalanceAuthority (historyEvents L w h))
    (ha : Unsigned p.admin (historyEvents L w h)) :
    (∃ p', (runHistory L w h).ctl.pool = some p' ∧ p'.rebalanceAuthority = p.rebalanceAuthority ∧ p'.isRebalancing = p.isRebalancing) ∧
    (∀ e ∈ historyEvents L w h, ∀ accs ix, e.IsIx accs ix → ix ≠ .endRebalance ∧ ∀ args, ix ≠ .startRebalance args) ∧
    ∀ e ∈ historyEvents L w h, ∀ k a, e.pre.led.tok k = some a → a.owner = cfg.poolState → bal e.post.led k < a.amount →
      ∃ accs ix, e.IsIx accs ix ∧ ((∃ args, ix = .swapExactIn args) ∨ (∃ args, ix = .swapExactOut args) ∨ ∃ args, ix = .removeLiquidity args) := by
  have hstep : ∀ e ∈ historyEvents L w h, (∃ p', e.pre.ctl.pool = some p' ∧ p'.admin = p.admin ∧ p'.rebalanceAuthority = p.rebalanceAuthority ∧
      p'.isRebalancing = p.isRebalancing) → ∃ p', e.post.ctl.pool = some p' ∧ p'.admin = p.admin ∧ p'.rebalanceAuthority = p.rebalanceAuthority ∧
      p'.isRebalancing = p.isRebalancing := by
    rintro e he ⟨q, hq, a1, a2, a3⟩
    obtain ⟨q', hq', -, -, b1, -, b2, -⟩ := C15_authorities he hq
    refine ⟨q', hq', ?_, ?_, ?_⟩
    · rw [← a1]; by_contra hc; obtain ⟨accs, hx, hs⟩ := b1 hc; rw [a1] at hs; exact ha e he _ _ hx hs
    · rw [← a2]; by_contra hc; obtain ⟨accs, hx, hs | hs⟩ := b2 hc
      · rw [a1] at hs; exact ha e he _ _ hx hs
      · rw [a2] at hs; exact hr e he _ _ hx hs
    · rw [← a3]
      obtain ⟨q'', hq'', hor⟩ := event_pool he hq
      rw [hq'] at hq''; cases hq''
      rcases hor with rfl | ⟨accs, ix, hx, hau, heff⟩
      · rfl
      · cases ix with
        | startRebalance args => obtain ⟨x, hx', hs⟩ := hau; cases hx'; rw [a2] at hs; exact (hr e he _ _ hx hs).elim
        | endRebalance => obtain ⟨x, hx', hs⟩ := hau; cases hx'; rw [a2] at hs; exact (hr e he _ _ hx hs).elim
        | «initialize» => exact heff.elim
        | _ => first
          | (obtain ⟨_, rfl⟩ := heff; rfl)
          | (rw [show q' = _ from heff])
  obtain ⟨hall, p', hp', -, h2, h3⟩ := history_events_inv (P := fun x => ∃ p', x.ctl.pool = some p' ∧ p'.admin = p.admin ∧
    p'.rebalanceAuthority = p.rebalanceAuthority ∧ p'.isRebalancing = p.isRebalancing) hstep ⟨p, hp, rfl, rfl, rfl⟩
  have hno : ∀ e ∈ historyEvents L w h, ∀ accs ix, e.IsIx accs ix → ix ≠ .endRebalance ∧ ∀ args, ix ≠ .startRebalance args := by
    intro e he accs ix hx
    obtain ⟨q, hq, -, a2, -⟩ := hall e he
    have hau := C14_history he hx
    refine ⟨?_, fun args => ?_⟩
    · rintro rfl; obtain ⟨x, hx', hs⟩ := hau; rw [hq] at hx'; cases hx'; rw [a2] at hs; exact hr e he _ _ hx hs
    · rintro rfl; obtain ⟨x, hx', hs⟩ := hau; rw [hq] at hx'; cases hx'; rw [a2] at hs; exact hr e he _ _ hx hs
  refine ⟨⟨p', hp', h2, h3⟩, hno, fun e he k a hk ho hlt => ?_⟩
  obtain ⟨accs, ix, hx, hor⟩ := C21_reserves_leave he hk ho hlt
  refine ⟨accs, ix, hx, ?_⟩
  rcases hor with h1 | h1 | h1 | ⟨args, _, h1, -⟩
  · exact .inl h1
  · exact .inr (.inl h1)
  · exact .inr (.inr h1)
  · exact ((hno e he accs ix hx).2 args h1).elim

/-- While neither the admin nor any disable authority signs anything: the disable authorities stay, and the pool is neither disabled nor enabled. -/
theorem C103_disable {p : PoolState} (hp : w.ctl.pool = some p) (ha : Unsigned p.admin (historyEvents L w h))
    (hd : ∀ k ∈ w.ctl.auths, Unsigned k (historyEvents L w h)) :
    (runHistory L w h).ctl.auths = w.ctl.auths ∧ ∃ p', (runHistory L w h).ctl.pool = some p' ∧ p'.isDisabled = p.isDisabled := by
  have := (history_events_inv (L := L) (w := w) (h := h) (P := fun x => x.ctl.auths = w.ctl.auths ∧ ∃ p', x.ctl.pool = some p' ∧ p'.admin = p.admin ∧
    p'.isDisabled = p.isDisabled) ?_ ⟨rfl, p, hp, rfl, rfl⟩).2
  · obtain ⟨h1, p', hp', -, h2⟩ := this; exact ⟨h1, p', hp', h2⟩
  · rintro e he ⟨a0, q, hq, a1, a2⟩
    have hno : ∀ accs ix, e.IsIx accs ix → ¬ SignedBy accs q.admin := by rw [a1]; exact ha e he
    have hnd : ∀ accs ix, e.IsIx accs ix → ∀ k ∈ e.pre.ctl.auths, ¬ SignedBy accs k := fun accs ix hx k hk => hd k (a0 ▸ hk) e he accs ix hx
    refine ⟨?_, ?_⟩
    · rw [← a0]
      rcases C18_changes he with h1 | ⟨accs, k, p1, hx, hp1, hs, -⟩ | ⟨accs, i, k, p1, hx, hp1, hk, hs, -⟩
      · exact h1
      · rw [hq] at hp1; cases hp1; exact (hno _ _ hx hs).elim
      · rw [hq] at hp1; cases hp1
        rcases hs with hs | hs
        · exact (hno _ _ hx hs).elim
        · exact (hnd _ _ hx k (List.mem_of_getElem? hk) hs).elim
    · obtain ⟨q', hq', -, -, b1, -⟩ := C15_authorities he hq
      refine ⟨q', hq', ?_, ?_⟩
      · rw [← a1]; by_contra hc; obtain ⟨accs, hx, hs⟩ := b1 hc; exact hno _ _ hx hs
      · rw [← a2]
        by_contra hc
        obtain ⟨accs, ⟨hx, -, hs | ⟨k, hk, hs⟩⟩ | ⟨hx, -, hs⟩⟩ := C48_flag_changes he hq hq' hc
        · exact hno _ _ hx hs
        · exact hnd _ _ hx k hk hs
        · exact hno _ _ hx hs

/-- While none of the pool's keys signs anything (admin, protocol fee beneficiary, rebalance authority, disable authorities), the only instructions of the
controller that succeed are the five anybody may send: syncing a value, swapping either way, adding and removing liquidity. -/
theorem C103_public {p : PoolState} (hp : w.ctl.pool = some p) (ha : Unsigned p.admin (historyEvents L w h))
    (hb : Unsigned p.protocolFeeBeneficiary (historyEvents L w h)) (hr : Unsigned p.rebalanceAuthority (historyEvents L w h))
    (hd : ∀ k ∈ w.ctl.auths, Unsigned k (historyEvents L w h)) :
    ∀ e ∈ historyEvents L w h, ∀ accs ix, e.IsIx accs ix →
      (∃ i, ix = .syncSolValue i) ∨ (∃ args, ix = .swapExactIn args) ∨ (∃ args, ix = .swapExactOut args) ∨
      (∃ args, ix = .addLiquidity args) ∨ ∃ args, ix = .removeLiquidity args := by
  have hall := (history_events_inv (L := L) (w := w) (h := h) (P := fun x => x.ctl.auths = w.ctl.auths ∧ ∃ q, x.ctl.pool = some q ∧ q.admin = p.admin ∧
    q.protocolFeeBeneficiary = p.protocolFeeBeneficiary ∧ q.rebalanceAuthority = p.rebalanceAuthority) ?_ ⟨rfl, p, hp, rfl, rfl, rfl⟩).1
  · intro e he accs ix hx
    obtain ⟨a0, q, hq, a1, a2, a3⟩ := hall e he
    have noA : ∀ {x : PoolState}, e.pre.ctl.pool = some x → SignedBy accs x.admin → False := fun h1 hs => by
      rw [hq] at h1; cases h1; rw [a1] at hs; exact ha e he _ _ hx hs
    have noB : ∀ {x : PoolState}, e.pre.ctl.pool = some x → SignedBy accs x.protocolFeeBeneficiary → False := fun h1 hs => by
      rw [hq] at h1; cases h1; rw [a2] at hs; exact hb e he _ _ hx hs
    have noR : ∀ {x : PoolState}, e.pre.ctl.pool = some x → SignedBy accs x.rebalanceAuthority → False := fun h1 hs => by
      rw [hq] at h1; cases h1; rw [a3] at hs; exact hr e he _ _ hx hs
    have noD : ∀ k ∈ e.pre.ctl.auths, SignedBy accs k → False := fun k hk hs => hd k (a0 ▸ hk) e he _ _ hx hs
    have hau := C14_history he hx
    cases ix with
    | syncSolValue i => exact .inl ⟨i, rfl⟩
    | swapExactIn args => exact .inr (.inl ⟨args, rfl⟩)
    | swapExactOut args => exact .inr (.inr (.inl ⟨args, rfl⟩))
    | addLiquidity args => exact .inr (.inr (.inr (.inl ⟨args, rfl⟩)))
    | removeLiquidity args => exact .inr (.inr (.inr (.inr ⟨args, rfl⟩)))
    | setProtocolFeeBeneficiary => obtain ⟨x, h1, hs⟩ := hau; exact (noB h1 hs).elim
    | withdrawProtocolFees n => obtain ⟨x, h1, hs⟩ := hau; exact (noB h1 hs).elim
    | startRebalance args => obtain ⟨x, h1, hs⟩ := hau; exact (noR h1 hs).elim
    | endRebalance => obtain ⟨x, h1, hs⟩ := hau; exact (noR h1 hs).elim
    | setRebalanceAuthority => obtain ⟨x, h1, hs | hs⟩ := hau; exacts [(noA h1 hs).elim, (noR h1 hs).elim]
    | removeDisablePoolAuthority i =>
      obtain ⟨x, h1, hs | ⟨k, hk, hs⟩⟩ := hau; exacts [(noA h1 hs).elim, (noD k (List.mem_of_getElem? hk) hs).elim]
    | disablePool => obtain ⟨x, h1, hs | ⟨k, hk, hs⟩⟩ := hau; exacts [(noA h1 hs).elim, (noD k hk hs).elim]
    | «initialize» =>
      obtain ⟨env, hpr, -⟩ := hx.process he
      obtain ⟨err, herr⟩ := C40_only_once L env e.tx e.pre accs (by rw [hq]; simp)
      rw [herr] at hpr; cases hpr
    | _ => obtain ⟨x, h1, hs⟩ := hau; exact (noA h1 hs).elim
  · rintro e he ⟨a0, q, hq, a1, a2, a3⟩
    obtain ⟨q', hq', -, -, b1, b2, b3, -⟩ := C15_authorities he hq
    refine ⟨?_, q', hq', ?_, ?_, ?_⟩
    · rw [← a0]
      rcases C18_changes he with h1 | ⟨accs, k, p1, hx, hp1, hs, -⟩ | ⟨accs, i, k, p1, hx, hp1, hk, hs, -⟩
      · exact h1
      · rw [hq] at hp1; cases hp1; rw [a1] at hs; exact (ha e he _ _ hx hs).elim
      · rw [hq] at hp1; cases hp1
        rcases hs with hs | hs
        · rw [a1] at hs; exact (ha e he _ _ hx hs).elim
        · exact (hd k (a0 ▸ List.mem_of_getElem? hk) e he _ _ hx hs).elim
    · rw [← a1]; by_contra hc; obtain ⟨accs, hx, hs⟩ := b1 hc; rw [a1] at hs; exact ha e he _ _ hx hs
    · rw [← a2]; by_contra hc; obtain ⟨accs, hx, hs⟩ := b2 hc; rw [a2] at hs; exact hb e he _ _ hx hs
    · rw [← a3]; by_contra hc; obtain ⟨accs, hx, hs | hs⟩ := b3 hc
      · rw [a1] at hs; exact ha e he _ _ hx hs
      · rw [a3] at hs; exact hr e he _ _ hx hs

/-- While the authority fixed in the program signs nothing, there is no pool. -/
theorem C103_initial (hp : w.ctl.pool = none) (hn : Unsigned cfg.initialAuthority (historyEvents L w h)) : (runHistory L w h).ctl.pool = none := by
  refine (history_events_inv (L := L) (w := w) (h := h) (P := fun x => x.ctl.pool = none) ?_ hp).2
  intro e he h0
  rcases event_cases he with ⟨hc, -⟩ | ⟨env, accs, ix, hx, -, hpr⟩
  · rw [hc]; exact h0
  · have hau := C14_authorized hpr
    have hc := processIx_ctl hpr
    cases ix with
    | «initialize» => exact (hn e he _ _ hx hau).elim
    | syncSolValue i => obtain ⟨p, h1, -⟩ := hc; have h2 := h1.1; rw [h0] at h2; cases h2
    | swapExactIn args => obtain ⟨p, _, h1, -⟩ := hc; have h2 := h1.1; rw [h0] at h2; cases h2
    | swapExactOut args => obtain ⟨p, _, h1, -⟩ := hc; have h2 := h1.1; rw [h0] at h2; cases h2
    | addLiquidity args => obtain ⟨p, _, h1, -⟩ := hc; have h2 := h1.1; rw [h0] at h2; cases h2
    | removeLiquidity args => obtain ⟨p, h1, -⟩ := hc; have h2 := h1.1; rw [h0] at h2; cases h2
    | _ => obtain ⟨q, h1, -⟩ := hau; rw [h0] at h1; cases h1

end

/-! ### The programs the controller calls -/

section
variable {sc : SysCfg} {L : RatioLib} {s : Sys sc} {h : List (SysTx sc)}

theorem sysEvents_inv {P : Sys sc → Prop} {es : List (SysEvent sc)} {s s' : Sys sc} (hc : SysChain s es s') (hstep : ∀ e ∈ es, P e.pre → P e.post) (h : P s) :
    P s' := by
  induction hc with
  | nil => exact h
  | @cons w' e es _ ih =>
    rw [List.forall_mem_cons] at hstep
    exact ih hstep.2 (hstep.1 h)

/-- While the manager of the flat-fee program signs none of its instructions, no fee changes, and it stays the manager. -/
theorem C103_flat_manager {f : FlatState} (hf : (s.flat L).state = some f)
    (hn : ∀ e ∈ systemEvents L s h, ∀ c, e.act = .flat c → ¬ SignedBy c.accs f.manager) : (runSystem L s h).flat L = s.flat L := by
  obtain ⟨hc, hr⟩ := systemEvents_chain (L := L) s h
  refine sysEvents_inv (P := fun x => x.flat L = s.flat L) hc (fun e he h0 => ?_) rfl
  have hrun := hr e he
  cases ha : e.act with
  | ext g ok =>
    rw [ha] at hrun; simp only [SysAction.run, Except.ok.injEq] at hrun
    rw [← hrun]; exact h0
  | controller o accs data =>
    rw [ha] at hrun; simp only [SysAction.run, bind_ok, pure_ok] at hrun
    obtain ⟨w, -, hw⟩ := hrun
    rw [← hw]; exact h0
  | «calc» pc mem c =>
    rw [ha] at hrun; simp only [SysAction.run, bind_ok, pure_ok, Prod.exists] at hrun
    obtain ⟨_, _, -, hw⟩ := hrun
    rw [← hw]; exact h0
  | flat c =>
    rw [ha] at hrun; simp only [SysAction.run, bind_ok, pure_ok, Prod.exists] at hrun
    obtain ⟨_, _, -, hw⟩ := hrun
    rw [← hw]
    have hap : c.apply L (s.flat L) = s.flat L := by
      by_contra hne
      exact hn e he c ha (C26_signed c hf hne)
    show flatHistory L (e.pre.flatCalls ++ [c]) = _
    rw [flatHistory, List.foldl_append]
    show c.apply L (e.pre.flat L) = _
    rw [h0, hap]

/-- While the manager of a calculator signs none of its instructions, the upgrade it last reviewed stays the same, and it stays the manager. -/
theorem C103_calc_manager {pc : PoolCfg} {st : CalcState} (hst : s.calc L pc = some st)
    (hn : ∀ e ∈ systemEvents L s h, ∀ pc' mem c, e.act = .calc pc' mem c → pc'.programId = pc.programId → ¬ SignedBy c.accs st.manager) :
    (runSystem L s h).calc L pc = some st := by
  obtain ⟨hc, hr⟩ := systemEvents_chain (L := L) s h
  refine sysEvents_inv (P := fun x => x.calc L pc = some st) hc (fun e he h0 => ?_) hst
  have hrun := hr e he
  cases ha : e.act with
  | ext g ok =>
    rw [ha] at hrun; simp only [SysAction.run, Except.ok.injEq] at hrun
    rw [← hrun]; exact h0
  | controller o accs data =>
    rw [ha] at hrun; simp only [SysAction.run, bind_ok, pure_ok] at hrun
    obtain ⟨w, -, hw⟩ := hrun
    rw [← hw]; exact h0
  | flat c =>
    rw [ha] at hrun; simp only [SysAction.run, bind_ok, pure_ok, Prod.exists] at hrun
    obtain ⟨_, _, -, hw⟩ := hrun
    rw [← hw]; exact h0
  | «calc» pc' mem c =>
    rw [ha] at hrun; simp only [SysAction.run, bind_ok, pure_ok, Prod.exists] at hrun
    obtain ⟨_, _, -, hw⟩ := hrun
    rw [← hw]
    show calcHistory L pc (upd e.pre.calcCalls pc'.programId (e.pre.calcCalls pc'.programId ++ [c]) pc.programId) = _
    by_cases hid : pc'.programId = pc.programId
    · have hap : c.apply L pc (some st) = some st := by
        unfold CalcCall.apply
        cases hx : calcInstruction L pc c.chain (some st) pc.programId c.accs c.data with
        | error _ => rfl
        | ok y =>
          obtain ⟨st', r⟩ := y
          rcases C27_changes hx with h1 | ⟨ix, rest, -, h1⟩
          · exact h1
          · cases h1 with
            | setManager _ new hm _ => exact (hn e he pc' mem c ha hid hm).elim
            | updateSlot _ slot hm _ => exact (hn e he pc' mem c ha hid hm).elim
      rw [hid]
      simp only [upd_same]
      rw [calcHistory, List.foldl_append]
      show c.apply L pc (e.pre.calc L pc) = _
      rw [h0, hap]
    · rw [upd_ne _ _ (fun h => hid h.symm)]
      exact h0

end

/-! ### Not vacuous -/

namespace Ex

/-- No call in the events is signed by `k`. -/
def unsignedB (k : Pubkey) (es : List (Event cfg)) : Bool := es.all fun e => match e.act with
  | .ext _ _ => true
  | .call c => c.accs.all fun a => !(a.signer && a.key == k)

theorem unsigned_of {k : Pubkey} {es : List (Event cfg)} (h : unsignedB k es = true) : Unsigned k es := by
  rintro e he accs ix ⟨c, hc, rfl, -⟩ ⟨a, ha, hs, hk⟩
  have := List.all_eq_true.1 h e he
  rw [hc] at this
  have := List.all_eq_true.1 this a ha
  simp [hs, hk] at this

/-- With the admin's key (6) unused, others sync, a fee beneficiary (61) withdraws fees and a disable authority (50) disables the pool. -/
def safeAdmin : List (Tx cfg) := [tSync, tWithdraw, tDisable]

theorem st18_pool : (st2 18).ctl.pool.map (fun p => (p.admin, p.rebalanceAuthority, p.protocolFeeBeneficiary, p.isDisabled)) = some (6, 62, 61, 0) := by decide +kernel

example : (historyEvents .ex (st2 18) safeAdmin).length = 3 ∧ (runHistory .ex (st2 18) safeAdmin).ctl.pool.map (·.isDisabled) = some 1 := by decide +kernel

example : ∃ p', (runHistory .ex (st2 18) safeAdmin).ctl.pool = some p' ∧ p'.admin = 6 ∧
    (runHistory .ex (st2 18) safeAdmin).ctl.lsts.map LstState.setup = (st2 18).ctl.lsts.map LstState.setup := by
  obtain ⟨p, hp, e⟩ := of_map st18_pool
  simp only [Prod.mk.injEq] at e
  obtain ⟨p', h1, h2, -, -, -, -, h3, -⟩ := C103_admin (L := .ex) (h := safeAdmin) hp (unsigned_of (by rw [e.1]; decide +kernel))
  exact ⟨p', h1, h2.trans e.1, h3⟩

/-- With the beneficiary's key (61) and the rebalance authority's (62) unused, the admin changes the configuration, resigns, and tokens are swapped: the fees stay. -/
def safeFees : List (Tx cfg) := [tDisableInput, tEnableInput, tSetCalc, tSetCalcBack, tSync, tSetAdmin]

example : (historyEvents .ex (st2 18) safeFees).length = 6 ∧ ((st2 18).led.tok feeB).map (fun a => (a.owner, a.amount)) = some (cfg.protocolFee, 4) := by decide +kernel

example : 4 ≤ bal (runHistory .ex (st2 18) safeFees).led feeB := by
  obtain ⟨p, hp, e⟩ := of_map st18_pool
  simp only [Prod.mk.injEq] at e
  obtain ⟨a, ha, e2⟩ := of_map (show ((st2 18).led.tok feeB).map (fun a => (a.owner, a.amount)) = some (cfg.protocolFee, 4) by decide +kernel)
  simp only [Prod.mk.injEq] at e2
  have := (C103_beneficiary (L := .ex) (h := safeFees) hp (unsigned_of (by rw [e.2.2.1]; decide +kernel))).2 feeB a ha e2.1
  rwa [e2.2] at this

/-- Users trade; neither the rebalance authority (62), nor the admin, nor a disable authority (50) signs. -/
def safeTrade : List (Tx cfg) := [tSync, tWithdraw]

example : (runHistory .ex (st2 18) safeTrade).ctl.auths = [50] ∧ ∃ p', (runHistory .ex (st2 18) safeTrade).ctl.pool = some p' ∧ p'.isDisabled = 0 ∧
    p'.rebalanceAuthority = 62 := by
  obtain ⟨p, hp, e⟩ := of_map st18_pool
  simp only [Prod.mk.injEq] at e
  have ha : Unsigned p.admin (historyEvents .ex (st2 18) safeTrade) := unsigned_of (by rw [e.1]; decide +kernel)
  have h50 : (st2 18).ctl.auths = [50] := by decide +kernel
  obtain ⟨h1, p', hp', h2⟩ := C103_disable (L := .ex) (h := safeTrade) hp ha (by
    intro k hk; rw [h50] at hk; simp at hk; subst hk; exact unsigned_of (by decide +kernel))
  obtain ⟨⟨q, hq, h3, -⟩, -⟩ := C103_rebalance (L := .ex) (h := safeTrade) hp (unsigned_of (by rw [e.2.1]; decide +kernel)) ha
  rw [hp'] at hq; cases hq
  exact ⟨h1.trans h50, p', hp', h2.trans e.2.2.2, h3.trans e.2.1⟩

/-- Only users act: a sync, swaps both ways, a deposit and a redemption; a stranger (40) who tries to become the admin is turned away. -/
def safePublic : List (Tx cfg) := [tSync, tSwapIn, [call [sg 40, ro 63, rw 1] .setAdmin], tSwapOut, tDepA, tRedeem]

example : (historyEvents .ex (st2 16) safePublic).length = 5 ∧ ∀ e ∈ historyEvents .ex (st2 16) safePublic, ∀ accs ix, e.IsIx accs ix →
    (∃ i, ix = .syncSolValue i) ∨ (∃ args, ix = .swapExactIn args) ∨ (∃ args, ix = .swapExactOut args) ∨
    (∃ args, ix = .addLiquidity args) ∨ ∃ args, ix = .removeLiquidity args := by
  refine ⟨by decide +kernel, ?_⟩
  obtain ⟨p, hp, e⟩ := of_map (show (st2 16).ctl.pool.map (fun p => (p.admin, p.rebalanceAuthority, p.protocolFeeBeneficiary)) = some (6, 6, 61) by decide +kernel)
  simp only [Prod.mk.injEq] at e
  have h50 : (st2 16).ctl.auths = [50] := by decide +kernel
  exact C103_public hp (unsigned_of (by rw [e.1]; decide +kernel)) (unsigned_of (by rw [e.2.2]; decide +kernel)) (unsigned_of (by rw [e.2.1]; decide +kernel))
    (by intro k hk; rw [h50] at hk; simp at hk; subst hk; exact unsigned_of (by decide +kernel))

/-- The key matters: with the admin's signature the pool changes hands. -/
example : unsignedB 6 (historyEvents .ex (st2 18) safeFees) = false ∧ (runHistory .ex (st2 18) safeFees).ctl.pool.map (·.admin) = some 63 := by decide +kernel

theorem keys_ok_of {α : Type} {x : R α} {a : α} (h : x.toOption = some a) : x = .ok a := by
  cases x with
  | ok b => cases h; rfl
  | error e => cases h

/-- With the admin's key (6) unused, 3000 of one LST buy 1980 of the other, before and after others have traded. -/
def safeTerms : List (Tx cfg) := [tSync, tSwapIn, tSwapOut, tDepA]

theorem safeTerms_ok : (historyEvents .ex (st2 5) safeTerms).length = 4 ∧ unsignedB 6 (historyEvents .ex (st2 5) safeTerms) = true ∧
    (st2 5).ctl.pool.map (·.admin) = some 6 ∧
    (processIx cfg .ex env ⟨[], 0⟩ (st2 5) swapAB (.swapExactIn ⟨1, 1, 0, 1, 10, 3000⟩)).toOption.map (fun w => bal w.led 42 - bal (st2 5).led 42) = some 1980 ∧
    (processIx cfg .ex env ⟨[], 0⟩ (runHistory .ex (st2 5) safeTerms) swapAB (.swapExactIn ⟨1, 1, 0, 1, 10, 3000⟩)).toOption.map
      (fun w => bal w.led 42 - bal (runHistory .ex (st2 5) safeTerms).led 42) = some 1980 := by decide +kernel

example : ∃ w₁ w₂ p, (st2 5).ctl.pool = some p ∧ Unsigned p.admin (historyEvents .ex (st2 5) safeTerms) ∧
    processIx cfg .ex env ⟨[], 0⟩ (st2 5) swapAB (.swapExactIn ⟨1, 1, 0, 1, 10, 3000⟩) = .ok w₁ ∧
    processIx cfg .ex env ⟨[], 0⟩ (runHistory .ex (st2 5) safeTerms) swapAB (.swapExactIn ⟨1, 1, 0, 1, 10, 3000⟩) = .ok w₂ := by
  obtain ⟨-, hu, hp, h1, h2⟩ := safeTerms_ok
  obtain ⟨p, hp, e⟩ := of_map hp
  obtain ⟨w₁, h1, -⟩ := of_map h1
  obtain ⟨w₂, h2, -⟩ := of_map h2
  exact ⟨w₁, w₂, p, hp, by rw [e]; exact unsigned_of hu, keys_ok_of h1, keys_ok_of h2⟩

/-- Before the pool exists, whatever others send. -/
example : (runHistory .ex w0 [tAddA, tSwapIn]).ctl.pool = none := C103_initial rfl (unsigned_of (by decide +kernel))

/-- No instruction of the flat-fee program in the events is signed by `k`, and none of a calculator by `m`. -/
def sysUnsignedB (k m : Pubkey) (es : List (SysEvent sysc)) : Bool := es.all fun e => match e.act with
  | .flat c => c.accs.all fun a => !(a.signer && a.key == k)
  | .calc _ _ c => c.accs.all fun a => !(a.signer && a.key == m)
  | _ => true

/-- Once the programs are set up: the former manager of the flat-fee program (301) and a stranger (40) try to change fees, the manager and the acknowledged slot, users trade. -/
def sysSafe : List (SysTx sysc) :=
  (fhist.take 6 ++ fhist.drop 7).map sysFlat ++ [sysLido 5000 [sg 40, rw 701, ro 702, ro 703] .updateLastUpgradeSlot] ++ sysHist.drop 16

theorem sysSafe_events : (systemEvents .ex (sysAt 16) sysSafe).length = 3 ∧ sysUnsignedB 305 602 (systemEvents .ex (sysAt 16) sysSafe) = true := by decide +kernel

example : (runSystem .ex (sysAt 16) sysSafe).flat .ex = (sysAt 16).flat .ex ∧ (runSystem .ex (sysAt 16) sysSafe).calc .ex jup.lido = some ⟨602, 5000⟩ := by
  have hf : ((sysAt 16).flat .ex).state = some ⟨305, 25⟩ := by decide +kernel
  have hc : (sysAt 16).calc .ex jup.lido = some ⟨602, 5000⟩ := by decide +kernel
  have hu := List.all_eq_true.1 sysSafe_events.2
  refine ⟨C103_flat_manager hf ?_, C103_calc_manager hc ?_⟩
  · rintro e he c hc ⟨a, ha, hs, hk⟩
    have := hu e he
    rw [hc] at this
    have := List.all_eq_true.1 this a ha
    simp [hs, hk] at this
  · rintro e he pc mem c hc - ⟨a, ha, hs, hk⟩
    have := hu e he
    rw [hc] at this
    have := List.all_eq_true.1 this a ha
    simp [hs, hk] at this

end Ex

end S
