import Verif.CalcPrograms
import Verif.Props.Data
import Verif.Props.Authority
import Verif.Props.Rates
import Verif.Fixtures
import Mathlib.Data.List.Induction
/-
C27: calculators refuse to price after an unreviewed stake pool program upgrade. C28: calculators refuse stale or unusable pools and price
the pool of the LST asked for.
-/
set_option autoImplicit false
namespace S

/-! ### Layouts -/

theorem Fld.decode_ok {f : Fld} {b r : List UInt8} {v : Val} : f.decode b = .ok (v, r) ↔ f.Has v ∧ b = f.encode v ++ r := by
  cases f with
  | int k =>
    simp only [Fld.decode, bind_ok, Prod.exists, readLE_ok, pure_ok, Prod.mk.injEq]
    constructor
    · rintro ⟨n, _, ⟨hn, rfl⟩, rfl, rfl⟩; exact ⟨hn, rfl⟩
    · rintro ⟨h, rfl⟩
      cases v with
      | int n => exact ⟨n, r, ⟨h, rfl⟩, rfl, rfl⟩
      | _ => exact h.elim
  | variant m =>
    simp only [Fld.decode, bind_ok, Prod.exists, readLE_ok, require_ok, exists_const, pure_ok, Prod.mk.injEq]
    constructor
    · rintro ⟨n, _, ⟨hn, rfl⟩, hm, rfl, rfl⟩; exact ⟨⟨hm, by simpa using hn⟩, rfl⟩
    · rintro ⟨h, rfl⟩
      cases v with
      | int n => exact ⟨n, r, ⟨by simpa using h.2, rfl⟩, h.1, rfl, rfl⟩
      | _ => exact h.elim
  | opt k =>
    simp only [Fld.decode, bind_ok, Prod.exists, readOpt_ok, pure_ok, Prod.mk.injEq]
    constructor
    · rintro ⟨o, _, ⟨ho, rfl⟩, rfl, rfl⟩; exact ⟨fun n hn => ho n hn, rfl⟩
    · rintro ⟨h, rfl⟩
      cases v with
      | opt o => exact ⟨o, r, ⟨fun n hn => h n hn, rfl⟩, rfl, rfl⟩
      | _ => exact h.elim
  | future =>
    simp only [Fld.decode, bind_ok, Prod.exists, readLE_ok]
    constructor
    · rintro ⟨t, r', ⟨ht, rfl⟩, h⟩
      split at h
      · rename_i h0; subst h0
        simp only [pure_ok, Prod.mk.injEq] at h
        obtain ⟨rfl, rfl⟩ := h
        exact ⟨.inl ⟨rfl, rfl, rfl⟩, rfl⟩
      · rename_i h0
        simp only [bind_ok, require_ok, exists_const, Prod.exists, readLE_ok, pure_ok, Prod.mk.injEq] at h
        obtain ⟨h3, d, _, ⟨hd, rfl⟩, n, _, ⟨hn, rfl⟩, rfl, rfl⟩ := h
        refine ⟨.inr ⟨by omega, by simpa using hd, by simpa using hn⟩, ?_⟩
        simp [Fld.encode, h0]
    · rintro ⟨h, rfl⟩
      cases v with
      | future t d n =>
        rcases h with ⟨rfl, rfl, rfl⟩ | ⟨ht, hd, hn⟩
        · exact ⟨0, r, ⟨by decide, rfl⟩, rfl⟩
        · have h0 : t ≠ 0 := by omega
          refine ⟨t, toLE 8 d ++ (toLE 8 n ++ r), ⟨by omega, by simp [Fld.encode, h0]⟩, ?_⟩
          rw [if_neg h0]
          simp only [bind_ok, require_ok, exists_const, Prod.exists, readLE_ok, pure_ok, Prod.mk.injEq]
          exact ⟨by omega, d, _, ⟨by simpa using hd, rfl⟩, n, r, ⟨by simpa using hn, rfl⟩, rfl, rfl⟩
      | _ => exact h.elim

/-- A layout's decoder reads exactly what its encoder writes, for any layout. -/
theorem decodeFields_ok {fs : List Fld} {b r : List UInt8} {vs : List Val} :
    decodeFields fs b = .ok (vs, r) ↔ List.Forall₂ Fld.Has fs vs ∧ b = encodeFields fs vs ++ r := by
  induction fs generalizing b vs r with
  | nil =>
    simp only [decodeFields, Except.ok.injEq, Prod.mk.injEq]
    constructor
    · rintro ⟨rfl, rfl⟩; exact ⟨.nil, rfl⟩
    · rintro ⟨h, rfl⟩; cases h; exact ⟨rfl, rfl⟩
  | cons f fs ih =>
    simp only [decodeFields, bind_ok, Prod.exists, Fld.decode_ok, pure_ok, Prod.mk.injEq]
    constructor
    · rintro ⟨v, b', ⟨hv, rfl⟩, vs', r', h, rfl, rfl⟩
      obtain ⟨hvs, rfl⟩ := ih.1 h
      exact ⟨.cons hv hvs, by simp [encodeFields]⟩
    · rintro ⟨h, rfl⟩
      cases h with
      | @cons _ v _ vs' hv hvs =>
        exact ⟨v, encodeFields fs vs' ++ r, ⟨hv, by simp [encodeFields]⟩, vs', r, ih.2 ⟨hvs, rfl⟩, rfl, rfl⟩

/-! ### Specification -/

/-- Program `prog` keeps its code in account `pd`, as the upgradeable loader records it. -/
def CodeAt (ch : OnChain) (prog pd : Pubkey) : Prop :=
  pd < 256 ^ 32 ∧ ∃ rest, ch.data prog = toLE 4 2 ++ (toLE 32 pd ++ rest)

/-- The code in account `pd` was last deployed in slot `slot`, as the upgradeable loader records it. -/
def DeployedAt (ch : OnChain) (pd : Pubkey) (slot : Nat) : Prop :=
  slot < U64 ∧ ∃ (auth : Option Pubkey) (rest : List UInt8), (∀ k, auth = some k → k < 256 ^ 32) ∧
    (ch.data pd).take 45 = toLE 4 3 ++ (toLE 8 slot ++ (optBytes 32 auth ++ rest)) ∧ 45 ≤ (ch.data pd).length

/-- Program `prog` was last upgraded in slot `slot`. -/
def UpgradedAt (ch : OnChain) (prog : Pubkey) (slot : Nat) : Prop := ∃ pd, CodeAt ch prog pd ∧ DeployedAt ch pd slot

/-- The pool account at `k` is an SPL stake pool of mint `mint` with figures `c`. -/
def SplPoolAt (ch : OnChain) (k mint : Pubkey) (c : SplCalc) : Prop :=
  ∃ vs rest, List.Forall₂ Fld.Has splLayout.flds vs ∧ ch.data k = encodeFields splLayout.flds vs ++ rest ∧
    splLayout.get vs .accountType = 1 ∧ splLayout.get vs .poolMint = mint ∧
    splLayout.get vs .lastUpdateEpoch = c.lastUpdateEpoch ∧ splLayout.get vs .totalLamports = c.totalLamports ∧
    splLayout.get vs .poolTokenSupply = c.poolTokenSupply ∧ splLayout.get vs .withdrawalFeeNumerator = c.feeNum ∧
    splLayout.get vs .withdrawalFeeDenominator = c.feeDenom

/-- The account at `k` is a Lido state with figures `c`. -/
def LidoAt (ch : OnChain) (k : Pubkey) (c : LidoCalc) : Prop :=
  ∃ vs rest, List.Forall₂ Fld.Has lidoLayout.flds vs ∧ ch.data k = encodeFields lidoLayout.flds vs ++ rest ∧
    lidoLayout.get vs .accountType = 1 ∧
    lidoLayout.get vs .computedInEpoch = c.computedInEpoch ∧ lidoLayout.get vs .stSolSupply = c.stSolSupply ∧
    lidoLayout.get vs .solBalance = c.solBalance

/-- The account at `k` is a Marinade state with figures `c`. -/
def MarinadeAt (ch : OnChain) (k : Pubkey) (c : MarinadeCalc) : Prop :=
  ∃ vs rest, List.Forall₂ Fld.Has marinadeLayout.flds vs ∧ ch.data k = encodeFields marinadeLayout.flds vs ++ rest ∧
    marinadeLayout.get vs .discriminant = ofLE [216, 146, 107, 94, 104, 75, 182, 177] ∧
    decide (marinadeLayout.get vs .paused = 1) = c.paused ∧
    marinadeLayout.get vs .delayedUnstakeCoolingDown = c.delayedUnstakeCoolingDown ∧
    marinadeLayout.get vs .emergencyCoolingDown = c.emergencyCoolingDown ∧
    marinadeLayout.get vs .totalActiveBalance = c.totalActiveBalance ∧
    marinadeLayout.get vs .availableReserveBalance = c.availableReserveBalance ∧
    marinadeLayout.get vs .circulatingTicketBalance = c.circulatingTicketBalance ∧
    marinadeLayout.get vs .msolSupply = c.msolSupply ∧
    decide (marinadeLayout.get vs .withdrawStakeAccountEnabled = 1) = c.withdrawStakeAccountEnabled ∧
    marinadeLayout.get vs .withdrawStakeAccountFee = c.withdrawStakeAccountFeeCents

/-- The pool at `k` is the one the calculator of `pc` prices `mint` with, it is in order this epoch, and its figures are `c`: SPL pools are
owned by the stake pool program, name the mint, and were updated this epoch; Lido's and Marinade's are at their fixed addresses, Lido's updated
this epoch, Marinade's not paused and with stake withdrawals enabled. -/
def UsablePool (pc : PoolCfg) (ch : OnChain) (k mint : Pubkey) (c : AnyCalc) : Prop :=
  match pc.kind with
  | .spl => ∃ x, c = .spl x ∧ ch.owner k = pc.poolProgram ∧ SplPoolAt ch k mint x ∧ x.lastUpdateEpoch = ch.epoch
  | .lido m p => ∃ x, c = .lido x ∧ mint = m ∧ k = p ∧ LidoAt ch k x ∧ x.computedInEpoch = ch.epoch
  | .marinade m p => ∃ x, c = .marinade x ∧ mint = m ∧ k = p ∧ MarinadeAt ch k x ∧ x.paused = false ∧ x.withdrawStakeAccountEnabled = true

/-- The account holding the stake pool program's code: read from the program (SPL) or fixed (Lido, Marinade). -/
def PoolCode (pc : PoolCfg) (ch : OnChain) (pd : Pubkey) : Prop :=
  match pc.kind with
  | .spl => CodeAt ch pc.poolProgram pd
  | _ => pd = pc.poolProgData

/-! ### Readers -/

theorem readProgramdataAddr_ok {ch : OnChain} {prog k : Pubkey} : readProgramdataAddr (ch.data prog) = .ok k ↔ CodeAt ch prog k := by
  unfold readProgramdataAddr CodeAt
  split
  · rename_i r h
    rw [readLE_ok] at h
    obtain ⟨_, h⟩ := h
    rw [h]
    split
    · rename_i k' r' h'
      rw [readLE_ok] at h'
      obtain ⟨hk, rfl⟩ := h'
      constructor
      · intro e; injection e with e; subst e; exact ⟨hk, r', rfl⟩
      · rintro ⟨hk', rest, e⟩
        have e := List.append_cancel_left e
        obtain ⟨e, _⟩ := List.append_inj e (by simp [toLE_length])
        have := congrArg ofLE e
        rw [ofLE_toLE _ _ hk, ofLE_toLE _ _ hk'] at this
        rw [this]
    · rename_i e h'
      constructor
      · intro e; cases e
      · rintro ⟨hk', rest, e⟩
        have e := List.append_cancel_left e
        rw [readLE_ok.2 ⟨hk', e⟩] at h'; cases h'
  · rename_i h
    constructor
    · intro e; cases e
    · rintro ⟨hk', rest, e⟩
      exact absurd (readLE_ok.2 ⟨by decide, e⟩) (h _)

theorem readProgdataMeta_ok {ch : OnChain} {pd : Pubkey} {slot : Nat} :
    (∃ a, readProgdataMeta (ch.data pd) = .ok (slot, a)) ↔ DeployedAt ch pd slot := by
  unfold readProgdataMeta DeployedAt
  split
  · rename_i h
    constructor
    · rintro ⟨_, h⟩; cases h
    · rintro ⟨_, _, _, _, _, h'⟩; omega
  · rename_i hlen
    have hlen : 45 ≤ (ch.data pd).length := by omega
    constructor
    · rintro ⟨a, h⟩
      split at h
      · rename_i r h1
        split at h
        · rename_i sl r2 h2
          split at h
          · rename_i au r3 h3
            injection h with h; injection h with h h'; subst h; subst h'
            rw [readLE_ok] at h1 h2; rw [readOpt_ok] at h3
            obtain ⟨_, e1⟩ := h1; obtain ⟨hs, rfl⟩ := h2; obtain ⟨ha, rfl⟩ := h3
            exact ⟨by simpa using hs, au, r3, fun k hk => ha k hk, e1, hlen⟩
          · cases h
        · cases h
      · cases h
    · rintro ⟨hs, a, rest, ha, e, _⟩
      refine ⟨a, ?_⟩
      have h1 : readLE 4 (toLE 4 3 ++ (toLE 8 slot ++ (optBytes 32 a ++ rest))) = .ok (3, toLE 8 slot ++ (optBytes 32 a ++ rest)) :=
        readLE_ok.2 ⟨by decide, rfl⟩
      have h2 : readLE 8 (toLE 8 slot ++ (optBytes 32 a ++ rest)) = .ok (slot, optBytes 32 a ++ rest) :=
        readLE_ok.2 ⟨by simpa using hs, rfl⟩
      have h3 : readOpt 32 (optBytes 32 a ++ rest) = .ok (a, rest) := readOpt_ok.2 ⟨fun k hk => ha k hk, rfl⟩
      simp only [e, h1, h2, h3]

theorem verifyNoUpgrade_ok {ch : OnChain} {st : Option CalcState} {pd : Pubkey} {u : Unit} :
    verifyNoUpgrade ch st pd = .ok u ↔ ∃ s, st = some s ∧ DeployedAt ch pd s.lastUpgradeSlot := by
  simp only [verifyNoUpgrade, bind_ok, Prod.exists, okOr_ok, require_ok]
  constructor
  · rintro ⟨slot, a, h, s, hs, rfl⟩; exact ⟨s, hs, readProgdataMeta_ok.1 ⟨a, h⟩⟩
  · rintro ⟨s, hs, h⟩
    obtain ⟨a, h⟩ := readProgdataMeta_ok.2 h
    exact ⟨_, a, h, s, hs, rfl⟩

theorem readSplPool_ok {ch : OnChain} {k mint : Pubkey} {c : SplCalc} : readSplPool (ch.data k) = .ok (mint, c) ↔ SplPoolAt ch k mint c := by
  unfold readSplPool SplPoolAt
  cases h : decodeFields splLayout.flds (ch.data k) with
  | error e =>
    constructor
    · intro h'; cases h'
    · rintro ⟨vs, rest, hv, hb, _⟩
      rw [decodeFields_ok.2 ⟨hv, hb⟩] at h; cases h
  | ok x =>
    obtain ⟨vs, r⟩ := x
    simp only [bind_ok, require_ok, exists_const, pure_ok, Prod.mk.injEq]
    constructor
    · rintro ⟨ht, rfl, rfl⟩
      obtain ⟨hv, hb⟩ := decodeFields_ok.1 h
      exact ⟨vs, r, hv, hb, ht, rfl, rfl, rfl, rfl, rfl, rfl⟩
    · rintro ⟨vs', rest, hv, hb, h1, h2, h3, h4, h5, h6, h7⟩
      have := decodeFields_ok.2 ⟨hv, hb⟩
      rw [h] at this; injection this with this; injection this with this _; subst this
      refine ⟨h1, h2, ?_⟩
      cases c; simp only at h3 h4 h5 h6 h7; subst h3; subst h4; subst h5; subst h6; subst h7; rfl

theorem readLido_ok {ch : OnChain} {k : Pubkey} {c : LidoCalc} : readLido (ch.data k) = .ok c ↔ LidoAt ch k c := by
  simp only [readLido, bind_ok, Prod.exists, decodeFields_ok, require_ok, exists_const, pure_ok]
  constructor
  · rintro ⟨vs, r, ⟨hv, hb⟩, ht, rfl⟩
    exact ⟨vs, r, hv, hb, ht, rfl, rfl, rfl⟩
  · rintro ⟨vs, r, hv, hb, ht, h1, h2, h3⟩
    refine ⟨vs, r, ⟨hv, hb⟩, ht, ?_⟩
    cases c; simp only at h1 h2 h3; subst h1; subst h2; subst h3; rfl

theorem readMarinade_ok {ch : OnChain} {k : Pubkey} {c : MarinadeCalc} : readMarinade (ch.data k) = .ok c ↔ MarinadeAt ch k c := by
  simp only [readMarinade, bind_ok, Prod.exists, decodeFields_ok, require_ok, exists_const, pure_ok]
  constructor
  · rintro ⟨vs, r, ⟨hv, hb⟩, ht, rfl⟩
    exact ⟨vs, r, hv, hb, ht, rfl, rfl, rfl, rfl, rfl, rfl, rfl, rfl, rfl⟩
  · rintro ⟨vs, r, hv, hb, ht, h1, h2, h3, h4, h5, h6, h7, h8, h9⟩
    refine ⟨vs, r, ⟨hv, hb⟩, ht, ?_⟩
    cases c; simp only at h1 h2 h3 h4 h5 h6 h7 h8 h9
    subst h1; subst h2; subst h3; subst h4; subst h5; subst h6; subst h7; subst h8; subst h9; rfl

/-- The accounts a conversion is asked with: LST mint, calculator state, pool, stake pool program, its code. -/
def ConversionAccs (pc : PoolCfg) (accs : List Acc) (mint pool pd : Pubkey) : Prop :=
  ∃ a b c d e rest, accs = a :: b :: c :: d :: e :: rest ∧ a.key = mint ∧ b.key = pc.stateId ∧ c.key = pool ∧ d.key = pc.poolProgram ∧ e.key = pd

/-- A calculator prices exactly when it is given its own accounts, the pool is in order and the stake pool program was last upgraded in
the recorded slot; the figures used are the pool's. -/
theorem verifyLstSol_iff {pc : PoolCfg} {ch : OnChain} {st : Option CalcState} {accs : List Acc} {c : AnyCalc} :
    verifyLstSol pc ch st accs = .ok c ↔
    ∃ mint pool pd s, ConversionAccs pc accs mint pool pd ∧ UsablePool pc ch pool mint c ∧ PoolCode pc ch pd ∧ st = some s ∧
      DeployedAt ch pd s.lastUpgradeSlot := by
  unfold verifyLstSol UsablePool PoolCode
  cases hk : pc.kind with
  | spl =>
    simp only [verifySpl, bind_ok, require_ok, exists_const, Prod.exists, readSplPool_ok, readProgramdataAddr_ok, checkLstSolKeys, checkKeys_ok,
      verifyNoUpgrade_ok, SplCalc.verifyUpdated, pure_ok, List.forall_mem_cons]
    constructor
    · rintro ⟨a, hl, h1, h2, mint, x, hp, pd, hc, ⟨k1, k2, _, k4, k5, _⟩, ⟨s, hs, hd⟩, he, rfl⟩
      unfold loadLstSol at hl
      split at hl
      · injection hl with hl; subst hl
        simp only at h1 h2 hp hc k1 k2 k4 k5 hd
        subst k5
        exact ⟨mint, _, _, s, ⟨_, _, _, _, _, _, rfl, k1, k2, rfl, k4, rfl⟩, ⟨x, rfl, h2, hp, he⟩, h1 ▸ hc, hs, hd⟩
      · cases hl
    · rintro ⟨mint, pool, pd, s, ⟨a, b, p, d, e, rest, rfl, rfl, hb, rfl, hd, rfl⟩, ⟨x, rfl, ho, hx, hep⟩, hc, hs, hdep⟩
      exact ⟨⟨a, b, p, d, e⟩, rfl, hd, ho, a.key, x, hx, e.key, by show CodeAt ch d.key _; rw [hd]; exact hc,
        by simp [hb, hd], ⟨s, hs, hdep⟩, hep, rfl⟩
  | lido m p =>
    simp only [verifyLido, bind_ok, require_ok, exists_const, readLido_ok, checkLstSolKeys, checkKeys_ok,
      verifyNoUpgrade_ok, LidoCalc.verifyUpdated, pure_ok, List.forall_mem_cons]
    constructor
    · rintro ⟨a, hl, ⟨k1, k2, k3, k4, k5, _⟩, ⟨s, hs, hd⟩, x, hx, he, rfl⟩
      unfold loadLstSol at hl
      split at hl
      · injection hl with hl; subst hl
        simp only at hx k1 k2 k3 k4 k5 hd
        exact ⟨_, _, _, s, ⟨_, _, _, _, _, _, rfl, rfl, k2, rfl, k4, rfl⟩, ⟨x, rfl, k1, k3, hx, he⟩, k5, hs, hd⟩
      · cases hl
    · rintro ⟨mint, pool, pd, s, ⟨a, b, p', d, e, rest, rfl, rfl, hb, rfl, hd, rfl⟩, ⟨x, rfl, hm, hpk, hx, hep⟩, hc, hs, hdep⟩
      exact ⟨⟨a, b, p', d, e⟩, rfl, ⟨hm, hb, hpk, hd, hc, by simp⟩, ⟨s, hs, hdep⟩, x, hx, hep, rfl⟩
  | marinade m p =>
    simp only [verifyMarinade, bind_ok, require_ok, exists_const, readMarinade_ok, checkLstSolKeys, checkKeys_ok,
      verifyNoUpgrade_ok, MarinadeCalc.verifyCanWithdrawStake, pure_ok, List.forall_mem_cons]
    constructor
    · rintro ⟨a, hl, ⟨k1, k2, k3, k4, k5, _⟩, ⟨s, hs, hd⟩, x, hx, ⟨h1, h2⟩, rfl⟩
      unfold loadLstSol at hl
      split at hl
      · injection hl with hl; subst hl
        simp only at hx k1 k2 k3 k4 k5 hd
        exact ⟨_, _, _, s, ⟨_, _, _, _, _, _, rfl, rfl, k2, rfl, k4, rfl⟩, ⟨x, rfl, k1, k3, hx, h1, h2⟩, k5, hs, hd⟩
      · cases hl
    · rintro ⟨mint, pool, pd, s, ⟨a, b, p', d, e, rest, rfl, rfl, hb, rfl, hd, rfl⟩, ⟨x, rfl, hm, hpk, hx, h1, h2⟩, hc, hs, hdep⟩
      exact ⟨⟨a, b, p', d, e⟩, rfl, ⟨hm, hb, hpk, hd, hc, by simp⟩, ⟨s, hs, hdep⟩, x, hx, ⟨h1, h2⟩, rfl⟩

/-! ### Instruction data -/

/-- Amounts in range. -/
def CalcIx.Wf : CalcIx → Prop
  | .lstToSol n | .solToLst n => n < U64
  | _ => True

/-- Calculator instruction data decodes to `ix` exactly when it starts with the encoding of `ix`. -/
theorem decodeCalcIx_iff {buf : List UInt8} {ix : CalcIx} : decodeCalcIx buf = .ok ix ↔ ix.Wf ∧ ∃ rest, buf = ix.encode ++ rest := by
  constructor
  · intro h
    unfold decodeCalcIx at h
    split at h
    · cases h
    · rename_i d r
      have hd : ∀ n, d.toNat = n → d = UInt8.ofNat n := fun n e => by rw [← e]; simp
      split at h
      · rename_i e
        simp only [bind_ok, Prod.exists, readLE_ok, pure_ok] at h
        obtain ⟨n, rest, ⟨hn, rfl⟩, rfl⟩ := h
        rw [hd _ e]
        exact ⟨by simpa [CalcIx.Wf] using hn, rest, by simp [CalcIx.encode]⟩
      · rename_i e
        simp only [bind_ok, Prod.exists, readLE_ok, pure_ok] at h
        obtain ⟨n, rest, ⟨hn, rfl⟩, rfl⟩ := h
        rw [hd _ e]
        exact ⟨by simpa [CalcIx.Wf] using hn, rest, by simp [CalcIx.encode]⟩
      · rename_i e; rw [pure_ok] at h; subst h; rw [hd _ e]; exact ⟨trivial, r, rfl⟩
      · rename_i e; rw [pure_ok] at h; subst h; rw [hd _ e]; exact ⟨trivial, r, rfl⟩
      · rename_i e; rw [pure_ok] at h; subst h; rw [hd _ e]; exact ⟨trivial, r, rfl⟩
      · cases h
  · rintro ⟨hw, rest, rfl⟩
    cases ix with
    | lstToSol n =>
      show (readLE 8 (toLE 8 n ++ rest) >>= _) = _
      rw [readLE_ok.2 ⟨show n < 256 ^ 8 from hw, rfl⟩]; rfl
    | solToLst n =>
      show (readLE 8 (toLE 8 n ++ rest) >>= _) = _
      rw [readLE_ok.2 ⟨show n < 256 ^ 8 from hw, rfl⟩]; rfl
    | updateLastUpgradeSlot => rfl
    | setManager => rfl
    | init => rfl

/-- The controller's request as an instruction of a calculator program. -/
def CalcReq.ix : CalcReq → CalcIx
  | .lstToSol n => .lstToSol n
  | .solToLst n => .solToLst n

/-- The data the controller sends: `LstToSolIxData`/`SolToLstIxData` of generated/sol-value-calculator-programs/sol_value_calculator_interface/src/instructions.rs
(discriminators 0 and 1, then the amount), built in programs/s-controller/src/cpi/sol_value_calculator.rs:103-127. -/
def CalcReq.encode : CalcReq → List UInt8
  | .lstToSol n => 0 :: toLE 8 n
  | .solToLst n => 1 :: toLE 8 n

/-- The amount asked about. -/
def CalcReq.amount : CalcReq → Nat
  | .lstToSol n => n
  | .solToLst n => n

/-- What the controller sends is understood as the conversion it asks for, and what a calculator returns is read back as the range it gave. -/
theorem calc_understands {q : CalcReq} {r : Range} (hq : q.amount < U64) (h1 : r.min < U64) (h2 : r.max < U64) :
    decodeCalcIx q.encode = .ok q.ix ∧ decodeRange r.encode = .ok r := by
  constructor
  · cases q with
    | lstToSol n => exact decodeCalcIx_iff.2 ⟨hq, [], by simp [CalcReq.encode, CalcReq.ix, CalcIx.encode]⟩
    | solToLst n => exact decodeCalcIx_iff.2 ⟨hq, [], by simp [CalcReq.encode, CalcReq.ix, CalcIx.encode]⟩
  · simp only [decodeRange, decodeRange.readTwo8, Range.encode, bind_ok, Prod.exists, readLE_ok, pure_ok, Prod.mk.injEq]
    exact ⟨r.min, r.max, ⟨r.min, toLE 8 r.max, ⟨by simpa using h1, rfl⟩, r.max, [], ⟨by simpa using h2, by simp⟩, rfl, rfl⟩, rfl⟩

/-! ### C28 -/

/-- The conversion a request asks for, by calculator `c`. -/
def AnyCalc.reply (L : RatioLib) (c : AnyCalc) : CalcReq → R Range
  | .lstToSol n => (c.calculator L).lstToSol n
  | .solToLst n => (c.calculator L).solToLst n

/-- C28: a stake pool calculator answers a request exactly when the accounts are its own, the pool is the LST's and usable this epoch, its
manager has recorded the current code of the stake pool program, and the conversion of that pool succeeds; the answer is that conversion,
and nothing is written. -/
theorem C28_answers {L : RatioLib} {pc : PoolCfg} {ch : OnChain} {st st' : Option CalcState} {pid : Pubkey} {accs : List Acc} {q : CalcReq} {r : Range}
    (hq : q.amount < U64) :
    calcInstruction L pc ch st pid accs q.encode = .ok (st', some r) ↔
    pid = pc.programId ∧ st' = st ∧ ∃ mint pool pd s c, ConversionAccs pc accs mint pool pd ∧ UsablePool pc ch pool mint c ∧
      PoolCode pc ch pd ∧ st = some s ∧ DeployedAt ch pd s.lastUpgradeSlot ∧ c.reply L q = .ok r := by
  have hd : decodeCalcIx q.encode = .ok q.ix := (calc_understands (r := ⟨0, 0⟩) hq (by decide) (by decide)).1
  simp only [calcInstruction, bind_ok, require_ok, exists_const, hd, Except.ok.injEq, exists_eq_left']
  refine and_congr_right fun _ => ?_
  cases q with
  | lstToSol n =>
    simp only [CalcReq.ix, calcProcess, bind_ok, pure_ok, Prod.mk.injEq, Option.some.injEq, verifyLstSol_iff]
    constructor
    · rintro ⟨c, ⟨m, p, pd, s, h1, h2, h3, h4, h5⟩, x, hx, rfl, rfl⟩; exact ⟨rfl, m, p, pd, s, c, h1, h2, h3, h4, h5, hx⟩
    · rintro ⟨rfl, m, p, pd, s, c, h1, h2, h3, h4, h5, hx⟩; exact ⟨c, ⟨m, p, pd, s, h1, h2, h3, h4, h5⟩, r, hx, rfl, rfl⟩
  | solToLst n =>
    simp only [CalcReq.ix, calcProcess, bind_ok, pure_ok, Prod.mk.injEq, Option.some.injEq, verifyLstSol_iff]
    constructor
    · rintro ⟨c, ⟨m, p, pd, s, h1, h2, h3, h4, h5⟩, x, hx, rfl, rfl⟩; exact ⟨rfl, m, p, pd, s, c, h1, h2, h3, h4, h5, hx⟩
    · rintro ⟨rfl, m, p, pd, s, c, h1, h2, h3, h4, h5, hx⟩; exact ⟨c, ⟨m, p, pd, s, h1, h2, h3, h4, h5⟩, r, hx, rfl, rfl⟩

/-- C28, wrapped SOL: the calculator answers only for the wrapped SOL mint, and gives the amount back. -/
theorem C28_wsol {programId wsolMint callee : Pubkey} {accs : List Acc} {q : CalcReq} {r : Range} (hq : q.amount < U64) :
    wsolInstruction programId wsolMint callee accs q.encode = .ok r ↔
    callee = programId ∧ (accs.head?.map Acc.key = some wsolMint) ∧ r = ⟨q.amount, q.amount⟩ := by
  have hd : decodeCalcIx q.encode = .ok q.ix := (calc_understands (r := ⟨0, 0⟩) hq (by decide) (by decide)).1
  simp only [wsolInstruction, bind_ok, require_ok, exists_const]
  refine and_congr_right fun _ => ?_
  cases accs with
  | nil => constructor
           · intro h; cases h
           · rintro ⟨h, _⟩; cases h
  | cons a l =>
    simp only [bind_ok, checkKeys_ok, exists_const, hd, Except.ok.injEq, exists_eq_left', List.forall_mem_cons, List.head?_cons, Option.map_some,
      Option.some.injEq]
    cases q <;> simp only [CalcReq.ix, wsolCalculator, CalcReq.amount, pure_ok, Range.single] <;> constructor <;> rintro ⟨h, e⟩
    all_goals first | exact ⟨h.1, e.symm⟩ | exact ⟨⟨h, by simp⟩, e.symm⟩

/-- A conversion and a change of the calculator's state never coincide: only conversions return a range. -/
theorem calc_returns {L : RatioLib} {pc : PoolCfg} {ch : OnChain} {st st' : Option CalcState} {pid : Pubkey} {accs : List Acc} {data : List UInt8}
    {r : Range} (h : calcInstruction L pc ch st pid accs data = .ok (st', some r)) :
    ∃ q : CalcReq, q.amount < U64 ∧ (∃ rest, data = q.encode ++ rest) ∧ calcInstruction L pc ch st pid accs q.encode = .ok (st', some r) := by
  simp only [calcInstruction, bind_ok, require_ok, exists_const] at h
  obtain ⟨hp, ix, hd, h⟩ := h
  obtain ⟨hw, rest, rfl⟩ := decodeCalcIx_iff.1 hd
  have hd0 : decodeCalcIx ix.encode = .ok ix := decodeCalcIx_iff.2 ⟨hw, [], by simp⟩
  have key : calcInstruction L pc ch st pid accs ix.encode = .ok (st', some r) := by
    simp only [calcInstruction, bind_ok, require_ok, exists_const]; exact ⟨hp, ix, hd0, h⟩
  cases ix with
  | lstToSol n => exact ⟨.lstToSol n, hw, ⟨rest, rfl⟩, key⟩
  | solToLst n => exact ⟨.solToLst n, hw, ⟨rest, rfl⟩, key⟩
  | updateLastUpgradeSlot =>
    simp only [calcProcess, bind_ok, pure_ok, Prod.mk.injEq] at h
    obtain ⟨_, _, _, h⟩ := h; cases h
  | setManager =>
    simp only [calcProcess, bind_ok, pure_ok, Prod.mk.injEq] at h
    obtain ⟨_, _, _, h⟩ := h; cases h
  | init =>
    simp only [calcProcess, bind_ok, pure_ok, Prod.mk.injEq] at h
    obtain ⟨_, _, _, h⟩ := h; cases h

/-! ### C27 -/

/-- For Lido and Marinade the code account is a constant of the calculator; it is the one the loader records. -/
def LoaderOk (pc : PoolCfg) (ch : OnChain) : Prop := pc.kind ≠ .spl → CodeAt ch pc.poolProgram pc.poolProgData

theorem PoolCode.code {pc : PoolCfg} {ch : OnChain} {pd : Pubkey} (h : PoolCode pc ch pd) (hl : LoaderOk pc ch) : CodeAt ch pc.poolProgram pd := by
  unfold PoolCode at h
  cases hk : pc.kind with
  | spl => rw [hk] at h; exact h
  | lido m p => rw [hk] at h; simp only at h; subst h; exact hl (by rw [hk]; simp)
  | marinade m p => rw [hk] at h; simp only at h; subst h; exact hl (by rw [hk]; simp)

/-- C27: whatever the instruction data and accounts, a range is returned only when the stake pool program was last upgraded in the recorded slot. -/
theorem C27_answers {L : RatioLib} {pc : PoolCfg} {ch : OnChain} {st st' : Option CalcState} {pid : Pubkey} {accs : List Acc} {data : List UInt8}
    {r : Range} (hl : LoaderOk pc ch) (h : calcInstruction L pc ch st pid accs data = .ok (st', some r)) :
    ∃ s, st = some s ∧ UpgradedAt ch pc.poolProgram s.lastUpgradeSlot := by
  obtain ⟨q, hq, _, h⟩ := calc_returns h
  obtain ⟨_, _, _, _, pd, s, _, _, _, hc, hs, hd, _⟩ := (C28_answers hq).1 h
  exact ⟨s, hs, pd, hc.code hl, hd⟩

/-- A program has one last upgrade slot. -/
theorem UpgradedAt.unique {ch : OnChain} {prog : Pubkey} {a b : Nat} (ha : UpgradedAt ch prog a) (hb : UpgradedAt ch prog b) : a = b := by
  obtain ⟨pa, ca, da⟩ := ha
  obtain ⟨pb, cb, db⟩ := hb
  have e := (readProgramdataAddr_ok.2 ca).symm.trans (readProgramdataAddr_ok.2 cb)
  injection e with e; subst e
  obtain ⟨x, hx⟩ := readProgdataMeta_ok.2 da
  obtain ⟨y, hy⟩ := readProgdataMeta_ok.2 db
  have e := hx.symm.trans hy
  injection e with e; injection e

/-- C27: once the stake pool program's last upgrade slot differs from the recorded one, every conversion is refused. -/
theorem C27_refused {L : RatioLib} {pc : PoolCfg} {ch : OnChain} {s : CalcState} {pid : Pubkey} {accs : List Acc} {q : CalcReq}
    {slot : Nat} (hl : LoaderOk pc ch) (hu : UpgradedAt ch pc.poolProgram slot) (hne : slot ≠ s.lastUpgradeSlot) (hq : q.amount < U64) :
    ∃ e, calcInstruction L pc ch (some s) pid accs q.encode = .error e := by
  cases h : calcInstruction L pc ch (some s) pid accs q.encode with
  | error e => exact ⟨e, rfl⟩
  | ok x =>
    obtain ⟨st', o⟩ := x
    cases o with
    | some r =>
      obtain ⟨s', hs', hu'⟩ := C27_answers hl h
      injection hs' with hs'; subst hs'
      exact absurd (hu.unique hu') hne
    | none =>
      have hd : decodeCalcIx q.encode = .ok q.ix := (calc_understands (r := ⟨0, 0⟩) hq (by decide) (by decide)).1
      simp only [calcInstruction, bind_ok, require_ok, exists_const, hd, Except.ok.injEq, exists_eq_left'] at h
      cases q <;> simp only [CalcReq.ix, calcProcess, bind_ok, pure_ok, Prod.mk.injEq] at h <;>
        (obtain ⟨_, _, _, _, _, _, h⟩ := h; cases h)

/-- What a calculator instruction can do to the calculator's state, and who must have signed. -/
inductive CalcChange (pc : PoolCfg) (ch : OnChain) (accs : List Acc) : CalcIx → Option CalcState → Option CalcState → Prop
  /-- Created, once, by anyone, with the fixed first manager and slot 0. -/
  | init : CalcChange pc ch accs .init none (some ⟨pc.initialManager, 0⟩)
  /-- The manager names the next manager; the slot stays. -/
  | setManager (s : CalcState) (new : Acc) (hm : SignedBy accs s.manager) (hn : accs[1]? = some new) :
      CalcChange pc ch accs .setManager (some s) (some ⟨new.key, s.lastUpgradeSlot⟩)
  /-- The manager records the slot the stake pool program was last upgraded in; the manager stays. -/
  | updateSlot (s : CalcState) (slot : Nat) (hm : SignedBy accs s.manager) (hu : UpgradedAt ch pc.poolProgram slot) :
      CalcChange pc ch accs .updateLastUpgradeSlot (some s) (some ⟨s.manager, slot⟩)

theorem signedBy_head {a : Acc} {l : List Acc} {k : Pubkey} (h : a.key = k) (hs : a.signer = true) : SignedBy (a :: l) k :=
  ⟨a, List.mem_cons_self, hs, h⟩

/-- C27: a calculator instruction leaves the calculator's state alone, or is one of the three changes above. -/
theorem C27_changes {L : RatioLib} {pc : PoolCfg} {ch : OnChain} {st st' : Option CalcState} {pid : Pubkey} {accs : List Acc} {data : List UInt8}
    {r : Option Range} (h : calcInstruction L pc ch st pid accs data = .ok (st', r)) :
    st' = st ∨ ∃ ix rest, data = ix.encode ++ rest ∧ CalcChange pc ch accs ix st st' := by
  simp only [calcInstruction, bind_ok, require_ok, exists_const] at h
  obtain ⟨_, ix, hd, h⟩ := h
  obtain ⟨_, rest, rfl⟩ := decodeCalcIx_iff.1 hd
  cases ix with
  | lstToSol n =>
    simp only [calcProcess, bind_ok, pure_ok, Prod.mk.injEq] at h
    obtain ⟨_, _, _, _, rfl, _⟩ := h; exact .inl rfl
  | solToLst n =>
    simp only [calcProcess, bind_ok, pure_ok, Prod.mk.injEq] at h
    obtain ⟨_, _, _, _, rfl, _⟩ := h; exact .inl rfl
  | updateLastUpgradeSlot =>
    simp only [calcProcess, bind_ok, pure_ok, Prod.mk.injEq] at h
    obtain ⟨s', h, rfl, _⟩ := h
    refine .inr ⟨_, rest, rfl, ?_⟩
    unfold calcUpdateSlot at h
    split at h
    · rename_i manager state prog progData l
      simp only [bind_ok, require_ok, exists_const, okOr_ok, readProgramdataAddr_ok, checkKeys_ok, checkWritable_ok, checkSigner_ok, List.forall_mem_cons,
        Prod.exists, pure_ok] at h
      obtain ⟨_, hp, s, rfl, pd, hc, ⟨hm, _, _, hpd, _⟩, _, ⟨hsg, _⟩, slot, a, hs, rfl⟩ := h
      rw [hpd] at hs
      exact .updateSlot s slot (signedBy_head hm hsg) ⟨pd, hp ▸ hc, readProgdataMeta_ok.1 ⟨a, hs⟩⟩
    · cases h
  | setManager =>
    simp only [calcProcess, bind_ok, pure_ok, Prod.mk.injEq] at h
    obtain ⟨s', h, rfl, _⟩ := h
    refine .inr ⟨_, rest, rfl, ?_⟩
    unfold calcSetManager at h
    split at h
    · rename_i manager new state l
      simp only [bind_ok, require_ok, exists_const, okOr_ok, checkKeys_ok, checkWritable_ok, checkSigner_ok, List.forall_mem_cons, pure_ok] at h
      obtain ⟨_, s, rfl, ⟨hm, _⟩, _, ⟨hsg, _⟩, rfl⟩ := h
      exact .setManager s new (signedBy_head hm hsg) rfl
    · cases h
  | init =>
    simp only [calcProcess, bind_ok, pure_ok, Prod.mk.injEq] at h
    obtain ⟨s', h, rfl, _⟩ := h
    refine .inr ⟨_, rest, rfl, ?_⟩
    unfold calcInit at h
    split at h
    · simp only [bind_ok, require_ok, exists_const, pure_ok, checkKeys_ok, checkWritable_ok, checkSigner_ok] at h
      obtain ⟨_, _, _, rfl, rfl⟩ := h
      exact .init
    · cases h

/-- The slot was recorded by the manager: call `c` of the history, signed by the manager of that moment, was an acknowledgement, and the stake pool
program's last upgrade at that moment was in that slot. -/
def Acknowledged (L : RatioLib) (pc : PoolCfg) (cs : List CalcCall) (slot : Nat) : Prop :=
  ∃ pre c post s, cs = pre ++ c :: post ∧ calcHistory L pc pre = some s ∧ SignedBy c.accs s.manager ∧
    (∃ rest, c.data = CalcIx.updateLastUpgradeSlot.encode ++ rest) ∧ UpgradedAt c.chain pc.poolProgram slot

theorem calcHistory_snoc {L : RatioLib} {pc : PoolCfg} {cs : List CalcCall} {c : CalcCall} :
    calcHistory L pc (cs ++ [c]) = c.apply L pc (calcHistory L pc cs) := by simp [calcHistory]

/-- C27, over histories: the recorded slot is 0 (never reviewed) or one the manager acknowledged when it was the program's last upgrade. -/
theorem C27_recorded {L : RatioLib} {pc : PoolCfg} {cs : List CalcCall} {s : CalcState} (h : calcHistory L pc cs = some s) :
    s.lastUpgradeSlot = 0 ∨ Acknowledged L pc cs s.lastUpgradeSlot := by
  induction cs using List.reverseRecOn generalizing s with
  | nil => cases h
  | append_singleton cs c ih =>
    have ext : ∀ {slot}, Acknowledged L pc cs slot → Acknowledged L pc (cs ++ [c]) slot := by
      rintro slot ⟨pre, c', post, s', rfl, h1, h2⟩
      exact ⟨pre, c', post ++ [c], s', by simp, h1, h2⟩
    have lift : ∀ {s' : CalcState}, calcHistory L pc cs = some s' → s'.lastUpgradeSlot = s.lastUpgradeSlot →
        s.lastUpgradeSlot = 0 ∨ Acknowledged L pc (cs ++ [c]) s.lastUpgradeSlot := by
      intro s' hs' e
      rcases ih hs' with h | h
      · exact .inl (e ▸ h)
      · exact .inr (e ▸ ext h)
    rw [calcHistory_snoc] at h
    unfold CalcCall.apply at h
    split at h
    · rename_i st' r hi
      subst h
      rcases C27_changes hi with e | ⟨ix, rest, hd, hc⟩
      · exact lift e.symm rfl
      · generalize hst : calcHistory L pc cs = st at hc
        cases hc with
        | init => exact .inl rfl
        | setManager s0 new hm hn => exact lift hst rfl
        | updateSlot s0 slot hm hu => exact .inr ⟨cs, c, [], s0, rfl, hst, hm, ⟨rest, hd⟩, hu⟩
    · exact lift h rfl

/-- C27: after any history, whenever a calculator answers, its stake pool program's last upgrade was in slot 0 or in a slot the manager
acknowledged while it was the last upgrade: no answer after an unreviewed upgrade. -/
theorem C27_reviewed {L : RatioLib} {pc : PoolCfg} {cs : List CalcCall} {ch : OnChain} {st' : Option CalcState} {accs : List Acc} {data : List UInt8}
    {r : Range} {slot : Nat} (hl : LoaderOk pc ch) (hu : UpgradedAt ch pc.poolProgram slot)
    (h : calcInstruction L pc ch (calcHistory L pc cs) pc.programId accs data = .ok (st', some r)) :
    slot = 0 ∨ Acknowledged L pc cs slot := by
  obtain ⟨s, hs, hu'⟩ := C27_answers hl h
  rw [hu.unique hu']
  exact C27_recorded hs

/-! ### The controller with these programs as its calculators -/

/-- In `env`, the program of `pc` answers as modelled above, with state `st` and the rest of the chain as in `ch`. -/
def Env.CalcServed {cfg : Cfg} (env : Env cfg) (L : RatioLib) (pc : PoolCfg) (ch : OnChain) (st : Option CalcState) : Prop :=
  ∀ {n w ms q r l}, env.askCalc n w pc.programId ms q = .ok (r, l) → ∃ st', calcProcess L pc ch st ms q.ix = .ok (st', some r)

theorem calcProcess_req {L : RatioLib} {pc : PoolCfg} {ch : OnChain} {st st' : Option CalcState} {ms : List Acc} {q : CalcReq} {r : Range}
    (h : calcProcess L pc ch st ms q.ix = .ok (st', some r)) :
    ∃ mint pool pd s c, ConversionAccs pc ms mint pool pd ∧ UsablePool pc ch pool mint c ∧ PoolCode pc ch pd ∧ st = some s ∧
      DeployedAt ch pd s.lastUpgradeSlot ∧ c.reply L q = .ok r := by
  cases q with
  | lstToSol n =>
    simp only [CalcReq.ix, calcProcess, bind_ok, pure_ok, Prod.mk.injEq, Option.some.injEq, verifyLstSol_iff] at h
    obtain ⟨c, ⟨m, p, pd, s, h1, h2, h3, h4, h5⟩, x, hx, rfl, rfl⟩ := h
    exact ⟨m, p, pd, s, c, h1, h2, h3, h4, h5, hx⟩
  | solToLst n =>
    simp only [CalcReq.ix, calcProcess, bind_ok, pure_ok, Prod.mk.injEq, Option.some.injEq, verifyLstSol_iff] at h
    obtain ⟨c, ⟨m, p, pd, s, h1, h2, h3, h4, h5⟩, x, hx, rfl, rfl⟩ := h
    exact ⟨m, p, pd, s, c, h1, h2, h3, h4, h5, hx⟩

theorem ConversionAccs.head {pc : PoolCfg} {ms : List Acc} {mint pool pd : Pubkey} (h : ConversionAccs pc ms mint pool pd) :
    ms.head?.map Acc.key = some mint := by
  obtain ⟨a, b, c, d, e, rest, rfl, rfl, _⟩ := h; rfl

/-- If `c` are the figures of the mint's only usable pool (a stake pool holds its mint's authority, so there is one), the program values the mint
as calculator `c` does: the value, rate and profit theorems C09–C12, C23, C37 apply to it. -/
theorem calc_values {cfg : Cfg} {env : Env cfg} {L : RatioLib} {pc : PoolCfg} {ch : OnChain} {st : Option CalcState} {mint : Pubkey} {c : AnyCalc}
    (hs : env.CalcServed L pc ch st) (hone : ∀ k c', UsablePool pc ch k mint c' → c' = c) : env.Values L pc.programId mint c := by
  intro n w ms r l hm
  constructor
  · intro a h
    obtain ⟨st', h⟩ := hs (q := .lstToSol a) h
    obtain ⟨m, pool, pd, s, c', ha, hu, _, _, _, hr⟩ := calcProcess_req h
    rw [ha.head] at hm; injection hm with hm; subst hm
    have := hone _ _ hu; subst this; exact hr
  · intro a h
    obtain ⟨st', h⟩ := hs (q := .solToLst a) h
    obtain ⟨m, pool, pd, s, c', ha, hu, _, _, _, hr⟩ := calcProcess_req h
    rw [ha.head] at hm; injection hm with hm; subst hm
    have := hone _ _ hu; subst this; exact hr

/-- A pool's figures are determined by its address: the condition of `calc_values` always holds for Lido and Marinade. -/
theorem UsablePool.unique {pc : PoolCfg} {ch : OnChain} {k mint : Pubkey} {c c' : AnyCalc} (h : UsablePool pc ch k mint c)
    (h' : UsablePool pc ch k mint c') : c = c' := by
  unfold UsablePool at h h'
  cases hk : pc.kind with
  | spl =>
    rw [hk] at h h'
    obtain ⟨x, rfl, _, hx, _⟩ := h; obtain ⟨y, rfl, _, hy, _⟩ := h'
    have e := (readSplPool_ok.2 hx).symm.trans (readSplPool_ok.2 hy)
    injection e with e; injection e with _ e; rw [e]
  | lido m p =>
    rw [hk] at h h'
    obtain ⟨x, rfl, _, _, hx, _⟩ := h; obtain ⟨y, rfl, _, _, hy, _⟩ := h'
    have e := (readLido_ok.2 hx).symm.trans (readLido_ok.2 hy)
    injection e with e; rw [e]
  | marinade m p =>
    rw [hk] at h h'
    obtain ⟨x, rfl, _, _, hx, _⟩ := h; obtain ⟨y, rfl, _, _, hy, _⟩ := h'
    have e := (readMarinade_ok.2 hx).symm.trans (readMarinade_ok.2 hy)
    injection e with e; rw [e]

/-- The instruction values the LST at index `i` (EndRebalance: the recorded destination). -/
def Values (w : World) (i : Nat) : Ix → Prop
  | .syncSolValue j => j = i
  | .swapExactIn a => a.srcLstIndex = i ∨ a.dstLstIndex = i
  | .swapExactOut a => a.srcLstIndex = i ∨ a.dstLstIndex = i
  | .addLiquidity a => a.lstIndex = i
  | .removeLiquidity a => a.lstIndex = i
  | .startRebalance a => a.srcLstIndex = i ∨ a.dstLstIndex = i
  | .endRebalance => ∃ rr, w.ctl.rebal = some rr ∧ rr.dstLstIndex = i
  | _ => False

/-- Some answer was given for the LST `s`. -/
theorem asked_of_sync {cfg : Cfg} {env : Env cfg} {n : Nat} {w w' : World} {res : Pubkey} {c : CalcCpi} {i : Nat} {acc : TokenAcc} {r : Range}
    {m : Pubkey} {s : LstState} (hr : SyncRun env n w res c i w' acc r) (hc : CalcSel c m s) (hm : s.mint = m) :
    ∃ n w ms q r l, ms.head?.map Acc.key = some s.mint ∧ env.askCalc n w s.solValueCalculator ms q = .ok (r, l) :=
  ⟨n, w, c.metas, _, r, w'.led, by rw [hm, ← hc.mint_eq]; rfl, by rw [← hc.program]; exact hr.ask⟩

/-- Every instruction that values an LST gets an answer from that LST's calculator. -/
theorem values_asks {cfg : Cfg} {L : RatioLib} {env : Env cfg} {tx : TxInfo} {w w' : World} {accs : List Acc} {ix : Ix} {i : Nat} {s : LstState}
    (h : processIx cfg L env tx w accs ix = .ok w') (hi : Values w i ix) (hs : w.ctl.lsts[i]? = some s) :
    ∃ n w ms q r l, ms.head?.map Acc.key = some s.mint ∧ env.askCalc n w s.solValueCalculator ms q = .ok (r, l) := by
  cases ix with
  | syncSolValue j =>
    obtain ⟨r⟩ := processSync_inv h
    have hi : j = i := hi
    subst hi
    have e := r.sel.get; rw [hs] at e; injection e with e
    have hm := r.sel.mint_eq
    have hc := r.calc_sel
    rw [← e] at hm hc
    exact asked_of_sync r.run hc hm
  | swapExactIn a =>
    obtain ⟨_, ⟨r⟩⟩ := processSwapExactIn_inv h
    have hsel := verifySwapCpis_sel r.ver.cpis r.ver.srcSel.get r.ver.dstSel.get
    rcases hi with rfl | rfl
    · have e := r.ver.srcSel.get; rw [hs] at e; injection e with e
      have hm := r.ver.srcSel.mint_eq; have hc := hsel.1; rw [← e] at hm hc
      exact asked_of_sync r.sync0 hc hm
    · have e := r.ver.dstSel.get; rw [hs] at e; injection e with e
      have hm := r.ver.dstSel.mint_eq; have hc := hsel.2.1; rw [← e] at hm hc
      exact asked_of_sync r.sync1 hc hm
  | swapExactOut a =>
    obtain ⟨_, ⟨r⟩⟩ := processSwapExactOut_inv h
    have hsel := verifySwapCpis_sel r.ver.cpis r.ver.srcSel.get r.ver.dstSel.get
    rcases hi with rfl | rfl
    · have e := r.ver.srcSel.get; rw [hs] at e; injection e with e
      have hm := r.ver.srcSel.mint_eq; have hc := hsel.1; rw [← e] at hm hc
      exact asked_of_sync r.sync0 hc hm
    · have e := r.ver.dstSel.get; rw [hs] at e; injection e with e
      have hm := r.ver.dstSel.mint_eq; have hc := hsel.2.1; rw [← e] at hm hc
      exact asked_of_sync r.sync1 hc hm
  | addLiquidity a =>
    obtain ⟨r⟩ := processAddLiquidity_inv h
    have hsel := verifyLpCpis_sel r.ver.cpis r.ver.sel.get
    have hi : a.lstIndex = i := hi
    subst hi
    have e := r.ver.sel.get; rw [hs] at e; injection e with e
    have hm := r.ver.sel.mint_eq; have hc := hsel.1; rw [← e] at hm hc
    exact asked_of_sync r.sync0 hc hm
  | removeLiquidity a =>
    obtain ⟨r⟩ := processRemoveLiquidity_inv h
    have hsel := verifyLpCpis_sel r.ver.cpis r.ver.sel.get
    have hi : a.lstIndex = i := hi
    subst hi
    have e := r.ver.sel.get; rw [hs] at e; injection e with e
    have hm := r.ver.sel.mint_eq; have hc := hsel.1; rw [← e] at hm hc
    exact asked_of_sync r.sync0 hc hm
  | startRebalance a =>
    obtain ⟨r⟩ := processStartRebalance_inv h
    have hc := r.cpis
    simp only [verifySrcDstCpis, bind_ok, Prod.exists, splitAt_ok, pure_ok] at hc
    obtain ⟨x, y, _, cs, hcs, cd, hcd, e'⟩ := hc
    rcases hi with rfl | rfl
    · have es := verifyCalcCpi_sel hcs r.srcSel.get
      have e := r.srcSel.get; rw [hs] at e; injection e with e
      have hm := r.srcSel.mint_eq
      have hc : CalcSel r.c.src r.a.srcLstMint.key r.src := by rw [← e']; exact es
      rw [← e] at hm hc
      exact asked_of_sync r.sync0 hc hm
    · have ed := verifyCalcCpi_sel hcd r.dstSel.get
      have e := r.dstSel.get; rw [hs] at e; injection e with e
      have hm := r.dstSel.mint_eq
      have hc : CalcSel r.c.dst r.a.dstLstMint.key r.dst := by rw [← e']; exact ed
      rw [← e] at hm hc
      exact asked_of_sync r.sync1 hc hm
  | endRebalance =>
    obtain ⟨r⟩ := processEndRebalance_inv h
    obtain ⟨rr, hrr, rfl⟩ := hi
    have e0 := r.record; rw [hrr] at e0; injection e0 with e0; subst e0
    have hsel := verifyCalcCpi_sel r.cpi r.sel.get
    have e := r.sel.get; rw [hs] at e; injection e with e
    have hm := r.sel.mint_eq; have hc := hsel; rw [← e] at hm hc
    exact asked_of_sync r.sync0 hc hm
  | _ => exact hi.elim

/-- C27 and C28 for users of the pool: SyncSolValue, swaps, deposits, withdrawals and rebalancing of an LST served by a stake pool calculator succeed
only while the LST has a usable pool and its stake pool program's last upgrade is the one its calculator's manager acknowledged. -/
theorem C27_C28_pool {cfg : Cfg} {L : RatioLib} {env : Env cfg} {tx : TxInfo} {w w' : World} {accs : List Acc} {ix : Ix} {i : Nat} {s : LstState}
    {pc : PoolCfg} {ch : OnChain} {cs : List CalcCall} (hserved : env.CalcServed L pc ch (calcHistory L pc cs)) (hl : LoaderOk pc ch)
    (hs : w.ctl.lsts[i]? = some s) (hcalc : s.solValueCalculator = pc.programId) (hi : Values w i ix)
    (h : processIx cfg L env tx w accs ix = .ok w') :
    (∃ k c, UsablePool pc ch k s.mint c) ∧ ∃ slot, UpgradedAt ch pc.poolProgram slot ∧ (slot = 0 ∨ Acknowledged L pc cs slot) := by
  obtain ⟨n, w1, ms, q, r, l, hm, ha⟩ := values_asks h hi hs
  rw [hcalc] at ha
  obtain ⟨st', ha⟩ := hserved ha
  obtain ⟨m, pool, pd, st, c, hc, hu, hcode, hst, hd, _⟩ := calcProcess_req ha
  rw [hc.head] at hm; injection hm with hm; subst hm
  exact ⟨⟨pool, c, hu⟩, _, ⟨pd, hcode.code hl, hd⟩, C27_recorded hst⟩

/-! ### The repository's fixtures: a history for each calculator -/
namespace Ex
open Fix

/-- Mainnet accounts of the fixtures, with a given epoch and given slots of the last upgrades of the three programs. -/
def chain (epoch : Nat) : OnChain where
  owner k := if k = jitoPool.1 then jitoPool.2.1 else 0
  data k := if k = jitoPool.1 then jitoPool.2.2 else if k = splProg.1 then splProg.2.2 else if k = splProgData.1 then splProgData.2.2
    else if k = lidoState.1 then lidoState.2.2 else if k = lidoProg.1 then lidoProg.2.2 else if k = lidoProgData.1 then lidoProgData.2.2
    else if k = marinadeState.1 then marinadeState.2.2 else if k = marinadeProg.1 then marinadeProg.2.2
    else if k = marinadeProgData.1 then marinadeProgData.2.2 else []
  epoch := epoch

/-- The same after an upgrade of the SPL stake pool program in slot 300000000. -/
def upgraded (epoch : Nat) : OnChain :=
  { chain epoch with data := fun k => if k = splProgData.1 then toLE 4 3 ++ toLE 8 300000000 ++ splProgData.2.2.drop 12 else (chain epoch).data k }

def spl : PoolCfg := ⟨.spl, 600, 601, splProg.1, splProgData.1, 602, 11⟩
def lido : PoolCfg := ⟨.lido stsolMint lidoState.1, 610, 611, lidoProg.1, lidoProgData.1, 602, 11⟩
def marinade : PoolCfg := ⟨.marinade msolMint marinadeState.1, 620, 621, marinadeProg.1, marinadeProgData.1, 602, 11⟩

def ask (pc : PoolCfg) (mint pool : Pubkey) : List Acc := [ro mint, ro pc.stateId, ro pool, ro pc.poolProgram, ro pc.poolProgData]

/-- Creation, then the manager acknowledges the current code; a stranger tries to, and to become manager; the manager hands over. -/
def setup (pc : PoolCfg) (ch : OnChain) : List CalcCall :=
  [⟨ch, [sg 40, rw pc.stateId, ro 11], CalcIx.init.encode⟩,
   ⟨ch, [sg 40, rw pc.stateId, ro pc.poolProgram, ro pc.poolProgData], CalcIx.updateLastUpgradeSlot.encode⟩,
   ⟨ch, [sg 602, rw pc.stateId, ro pc.poolProgram, ro pc.poolProgData], CalcIx.updateLastUpgradeSlot.encode⟩,
   ⟨ch, [sg 40, ro 40, rw pc.stateId], CalcIx.setManager.encode⟩,
   ⟨ch, [sg 602, ro 603, rw pc.stateId], CalcIx.setManager.encode⟩]

example : calcHistory .ex spl (setup spl (chain 539)) = some ⟨603, 238419616⟩ ∧ calcHistory .ex lido (setup lido (chain 539)) = some ⟨603, 165468732⟩ ∧
    calcHistory .ex marinade (setup marinade (chain 539)) = some ⟨603, 229946024⟩ := by decide +kernel

def answer (pc : PoolCfg) (ch : OnChain) (accs : List Acc) (q : CalcReq) : Option Range :=
  match calcInstruction .ex pc ch (calcHistory .ex pc (setup pc (chain 539))) pc.programId accs q.encode with
  | .ok (_, r) => r
  | .error _ => none

-- The expected values of the repository's program tests (spl, lido and marinade `lst_to_sol.rs`); then: wrong mint, stale epoch, upgraded program, and after the
-- new manager acknowledges the upgrade.
example : answer spl (chain 539) (ask spl jitosolMint jitoPool.1) (.lstToSol 1000000000) = some (Range.single 1072326756) := by decide +kernel
example : answer lido (chain 543) (ask lido stsolMint lidoState.1) (.lstToSol 1000000000) = some (Range.single 1147696330) := by decide +kernel
example : answer marinade (chain 539) (ask marinade msolMint marinadeState.1) (.lstToSol 1000000000) = some (Range.single 1162900315) := by decide +kernel
example : answer spl (chain 539) (ask spl msolMint jitoPool.1) (.lstToSol 1000000000) = none := by decide +kernel
example : answer spl (chain 540) (ask spl jitosolMint jitoPool.1) (.lstToSol 1000000000) = none := by decide +kernel
example : answer spl (upgraded 539) (ask spl jitosolMint jitoPool.1) (.lstToSol 1000000000) = none := by decide +kernel
example : (calcInstruction .ex spl (upgraded 539) (calcHistory .ex spl (setup spl (chain 539) ++
    [⟨upgraded 539, [sg 603, rw 601, ro splProg.1, ro splProgData.1], CalcIx.updateLastUpgradeSlot.encode⟩])) 600 (ask spl jitosolMint jitoPool.1)
    (CalcReq.lstToSol 1000000000).encode).toOption = some (some ⟨603, 300000000⟩, some (Range.single 1072326756)) := by decide +kernel

-- Lido's and Marinade's constants are what the loader records
example : LoaderOk lido (chain 539) := fun _ => readProgramdataAddr_ok.1 (by decide +kernel)
example : LoaderOk marinade (chain 539) := fun _ => readProgramdataAddr_ok.1 (by decide +kernel)

/-- An environment in which program 600 is the SPL calculator. -/
def splEnv : Env cfg := Env.pure cfg (fun p ms q => if p = 600 then
    (calcProcess .ex spl (chain 539) (calcHistory .ex spl (setup spl (chain 539))) ms q.ix).bind fun x => okOr x.2 .faultySolValueCalculator
  else .error .token) (fun _ _ _ => .error .token)

theorem splEnv_served : splEnv.CalcServed .ex spl (chain 539) (calcHistory .ex spl (setup spl (chain 539))) := by
  intro n w ms q r l h
  have h := (Env.pure_calc.1 h).1
  have e : (spl.programId = 600) = True := by simp [spl]
  simp only [e, if_true] at h
  cases hf : calcProcess .ex spl (chain 539) (calcHistory .ex spl (setup spl (chain 539))) ms q.ix with
  | error e => rw [hf] at h; cases h
  | ok x =>
    rw [hf] at h
    have h : okOr x.2 Err.faultySolValueCalculator = .ok r := h
    rw [okOr_ok] at h
    exact ⟨x.1, by rw [← h]⟩

end Ex

end S
