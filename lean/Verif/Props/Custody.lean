import Verif.Props.Authority
/-
C20 (protocol fees leave only to the beneficiary's order), C21 (reserves leave only through swaps, redemptions and
rebalances), and what can happen to the accounts the pool holds.
-/
set_option autoImplicit false
namespace S

/-- Balance of a token account (0 if there is none). -/
def bal (l : Ledger) (k : Pubkey) : Nat := (l.tok k).elim 0 TokenAcc.amount

theorem bal_some {l : Ledger} {k : Pubkey} {a : TokenAcc} (h : l.tok k = some a) : bal l k = a.amount := by
  simp [bal, h]

/-- An account held by one of the pool's two authorities, across one successful instruction. -/
theorem ctrl_account_ix {cfg : Cfg} {L : RatioLib} {env : Env cfg} {tx : TxInfo} {w w' : World} {accs : List Acc} {ix : Ix}
    (hsig : signersOk cfg accs) (h : processIx cfg L env tx w accs ix = .ok w') {k : Pubkey} {a : TokenAcc}
    (hk : w.led.tok k = some a) (hc : Ctrl cfg a.owner) :
    (∃ n, w'.led.tok k = some { a with amount := n } ∧
      (n < a.amount → (a.owner = cfg.poolState ∧ ix.movesReserves) ∨
        (a.owner = cfg.protocolFee ∧ ∃ x, ix = .withdrawProtocolFees x))) ∨
    (w'.led.tok k = none ∧ a.amount = 0 ∧ ∃ i, ix = .removeLst i) := by
  by_cases hr : ∃ i, ix = .removeLst i
  · obtain ⟨i, rfl⟩ := hr
    obtain ⟨r⟩ := processRemoveLst_inv h
    obtain ⟨fa, hfa, _, _, hfa0, e1⟩ := closeToken_ok.1 r.c1
    obtain ⟨ra, hra, _, _, hra0, e2⟩ := closeToken_ok.1 r.c2
    have el : w'.led = r.l2 := congrArg World.led r.eq
    rw [el, e2, e1]
    rw [e1] at hra
    by_cases h1 : k = r.a.poolReserves.key
    · rw [setTok_tok, h1, upd_same]
      refine .inr ⟨rfl, ?_, i, rfl⟩
      rw [setTok_tok] at hra
      by_cases h2 : k = r.a.protocolFeeAccumulator.key
      · rw [← h1, h2, upd_same] at hra; cases hra
      · rw [← h1, upd_ne _ _ h2, hk] at hra; injection hra with hra; rw [hra]; exact hra0
    · rw [setTok_tok, upd_ne _ _ h1, setTok_tok]
      by_cases h2 : k = r.a.protocolFeeAccumulator.key
      · rw [h2, upd_same]
        rw [h2, hfa] at hk; injection hk with hk; rw [← hk]
        exact .inr ⟨rfl, hfa0, i, rfl⟩
      · rw [upd_ne _ _ h2]
        exact .inl ⟨a.amount, hk, fun hlt => absurd hlt (by omega)⟩
  · obtain ⟨ops, ht, ha⟩ := processIx_trace h
    obtain ⟨n, hn, hd⟩ := TraceE.tok ht hk hc (fun op ho tp o e => by
      have := ha op ho; rw [e] at this; exact hr this)
    refine .inl ⟨n, hn, fun hlt => ?_⟩
    obtain ⟨op, ho, x, _, hdeb⟩ := hd hlt
    have hal := ha op ho
    have nosig : ∀ {o : Pubkey}, o = a.owner → (∃ a ∈ accs, a.signer = true ∧ a.key = o) → False := by
      rintro o rfl ⟨s, hs, hss, hsk⟩
      have := hsig s hs hss
      rcases hc with hc | hc
      · exact this.1 (hsk.trans hc)
      · exact this.2 (hsk.trans hc)
    rcases hdeb with ⟨t, rfl, _, hau⟩ | ⟨m, tp, rfl⟩
    · rcases hal with hal | ⟨e, hm⟩ | ⟨e, hm⟩
      · exact (nosig hau hal).elim
      · exact .inl ⟨hau ▸ e, hm⟩
      · exact .inr ⟨hau ▸ e, x, hm⟩
    · exact (nosig rfl hal.2.1).elim

/-- The accounts held by the pool and by the fee authority are never re-assigned, and closed only by RemoveLst when they are
empty. -/
theorem held_accounts_stay {cfg : Cfg} {L : RatioLib} {w₀ : World} {h : List (Tx cfg)} {e : Event cfg}
    (he : e ∈ historyEvents L w₀ h) {k : Pubkey} {a : TokenAcc} (hk : e.pre.led.tok k = some a)
    (hc : a.owner = cfg.poolState ∨ a.owner = cfg.protocolFee) :
    (∃ n, e.post.led.tok k = some { a with amount := n }) ∨
    (e.post.led.tok k = none ∧ a.amount = 0 ∧ ∃ accs i p, e.IsIx accs (.removeLst i) ∧ e.pre.ctl.pool = some p ∧
      SignedBy accs p.admin) := by
  rcases event_cases he with ⟨_, hx, _⟩ | ⟨env, accs, ix, hx, hs, hp⟩
  · obtain ⟨n, _, hn⟩ := hx.tok k a hk hc
    exact .inl ⟨n, hn⟩
  · rcases ctrl_account_ix hs hp hk hc with ⟨n, hn, _⟩ | ⟨hn, h0, i, rfl⟩
    · exact .inl ⟨n, hn⟩
    · obtain ⟨p, hpp, hsg⟩ := C14_authorized hp
      exact .inr ⟨hn, h0, accs, i, p, hx, hpp, hsg⟩

/-- C21: if the balance of an account owned by the pool goes down in a committed action, that action is a SwapExactIn,
SwapExactOut or RemoveLiquidity, or a StartRebalance signed by the rebalance authority of that moment. -/
theorem C21_reserves_leave {cfg : Cfg} {L : RatioLib} {w₀ : World} {h : List (Tx cfg)} {e : Event cfg}
    (he : e ∈ historyEvents L w₀ h) {k : Pubkey} {a : TokenAcc} (hk : e.pre.led.tok k = some a)
    (ho : a.owner = cfg.poolState) (hlt : bal e.post.led k < a.amount) :
    ∃ accs ix, e.IsIx accs ix ∧ ((∃ args, ix = .swapExactIn args) ∨ (∃ args, ix = .swapExactOut args) ∨
      (∃ args, ix = .removeLiquidity args) ∨
      (∃ args p, ix = .startRebalance args ∧ e.pre.ctl.pool = some p ∧ SignedBy accs p.rebalanceAuthority)) := by
  rcases event_cases he with ⟨_, hx, _⟩ | ⟨env, accs, ix, hx, hs, hp⟩
  · obtain ⟨n, hle, hn⟩ := hx.tok k a hk (.inl ho)
    rw [bal_some hn] at hlt; exact absurd hle (Nat.not_le.2 hlt)
  · rcases ctrl_account_ix hs hp hk (.inl ho) with ⟨n, hn, hd⟩ | ⟨_, h0, _⟩
    · rw [bal_some hn] at hlt
      rcases hd hlt with ⟨_, hm⟩ | ⟨hf, _⟩
      · refine ⟨accs, ix, hx, ?_⟩
        cases ix with
        | swapExactIn args => exact .inl ⟨_, rfl⟩
        | swapExactOut args => exact .inr (.inl ⟨_, rfl⟩)
        | removeLiquidity args => exact .inr (.inr (.inl ⟨_, rfl⟩))
        | startRebalance args =>
          obtain ⟨p, hpp, hsg⟩ := C14_authorized hp
          exact .inr (.inr (.inr ⟨args, p, rfl, hpp, hsg⟩))
        | _ => exact hm.elim
      · exact absurd (ho.symm.trans hf) cfg.pool_ne_fee
    · omega

theorem WithdrawAccs.load_pos {accs : List Acc} {a : WithdrawAccs} (h : WithdrawAccs.load accs = .ok a) :
    accs[1]? = some a.withdrawTo := by
  unfold WithdrawAccs.load at h; split at h
  · injection h with h; subst h; rfl
  · cases h

/-- C20: if the balance of an account owned by the fee authority (a protocol fee accumulator) goes down in a committed action,
that action is a WithdrawProtocolFees signed by the beneficiary of that moment; the balance goes down by exactly the requested
amount, and the account named by the beneficiary, of the same mint, gets exactly that amount. -/
theorem C20_fees_leave {cfg : Cfg} {L : RatioLib} {w₀ : World} {h : List (Tx cfg)} {e : Event cfg}
    (he : e ∈ historyEvents L w₀ h) {k : Pubkey} {a : TokenAcc} (hk : e.pre.led.tok k = some a)
    (ho : a.owner = cfg.protocolFee) (hlt : bal e.post.led k < a.amount) :
    ∃ accs n p dst b, e.IsIx accs (.withdrawProtocolFees n) ∧ e.pre.ctl.pool = some p ∧
      SignedBy accs p.protocolFeeBeneficiary ∧ n ≤ a.amount ∧ bal e.post.led k = a.amount - n ∧
      accs[1]? = some dst ∧ dst.key ≠ k ∧ e.pre.led.tok dst.key = some b ∧ b.mint = a.mint ∧
      e.post.led.tok dst.key = some { b with amount := b.amount + n } := by
  rcases event_cases he with ⟨_, hx, _⟩ | ⟨env, accs, ix, hx, hs, hp⟩
  · obtain ⟨n, hle, hn⟩ := hx.tok k a hk (.inr ho)
    rw [bal_some hn] at hlt; exact absurd hle (Nat.not_le.2 hlt)
  · rcases ctrl_account_ix hs hp hk (.inr ho) with ⟨n, hn, hd⟩ | ⟨_, h0, _⟩
    · rw [bal_some hn] at hlt
      simp only at hlt
      rcases hd hlt with ⟨hf, _⟩ | ⟨_, x, rfl⟩
      · exact absurd (hf.symm.trans ho) cfg.pool_ne_fee
      · obtain ⟨p, hpp, hsg⟩ := C14_authorized hp
        obtain ⟨r⟩ := processWithdraw_inv hp
        obtain ⟨m, sa, da, f⟩ := transfer_ok.1 r.t1
        have el : e.post.led = r.l1 := congrArg World.led r.eq
        rw [el] at hn ⊢
        have ht := f.tok k
        rw [hn] at ht
        by_cases e1 : r.a.protocolFeeAccumulator.key = r.a.withdrawTo.key
        · rw [if_pos e1, hk] at ht; injection ht with ht; have := congrArg TokenAcc.amount ht; simp at this; omega
        rw [if_neg e1] at ht
        by_cases e2 : k = r.a.withdrawTo.key
        · rw [if_pos e2] at ht; injection ht with ht
          have hdst := f.dst
          rw [← e2, hk] at hdst; injection hdst with hdst; subst hdst
          have := congrArg TokenAcc.amount ht; simp at this; omega
        rw [if_neg e2] at ht
        by_cases e3 : k = r.a.protocolFeeAccumulator.key
        · rw [if_pos e3] at ht; injection ht with ht
          have hsrc := f.src
          rw [← e3, hk] at hsrc; injection hsrc with hsrc; subst hsrc
          have hn' : n = a.amount - x := by have := congrArg TokenAcc.amount ht; simpa using this
          have htd := f.tok r.a.withdrawTo.key
          rw [if_neg e1, if_pos rfl] at htd
          exact ⟨accs, x, p, r.a.withdrawTo, da, hx, hpp, hsg, f.enough, by rw [bal_some hn, hn'],
            WithdrawAccs.load_pos r.load, fun e => e2 e.symm, f.dst, f.bmint.trans f.amint.symm, htd⟩
        · rw [if_neg e3, hk] at ht; injection ht with ht; have := congrArg TokenAcc.amount ht; simp at this; omega
    · omega

-- The example withdraws 2 from accumulator B, held by the fee authority 5, to account 42.
example : (Ex.st2 23).led.tok Ex.feeB = some ⟨8, 22, 5, 4⟩ ∧ (Ex.st2 24).led.tok Ex.feeB = some ⟨8, 22, 5, 2⟩ ∧
    (Ex.st2 23).led.tok 42 = some ⟨8, 22, 40, 987980⟩ ∧ (Ex.st2 24).led.tok 42 = some ⟨8, 22, 40, 987982⟩ := by
  decide +kernel

end S
