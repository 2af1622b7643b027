import Verif.PureEnv
import Verif.History
import Verif.Calculators
import Mathlib.Data.Nat.Pairing
/-
A concrete deployment, used only to show that the hypotheses of the theorems are met by real runs:
two LSTs (one valued 1:1, one at 3/2 by a Lido-style calculator), a pricing program charging 1%, a user, and a history that
initializes the pool, lists both LSTs, deposits, swaps, redeems and rebalances.
-/
set_option autoImplicit false
namespace S.Ex

def ataKey (w p m : Nat) : Nat := 1000 + Nat.pair w (Nat.pair p m)

def cfg : Cfg where
  programId := 13
  poolState := 1
  lstStateList := 2
  disablePoolAuthorityList := 3
  rebalanceRecord := 4
  protocolFee := 5
  initialAuthority := 6
  flatFeeProgram := 7
  splToken := 8
  token22 := 9
  ataProgram := 10
  systemProgram := 11
  instructionsSysvar := 12
  ata w p m b := if b = 255 then some (ataKey w p m) else none
  findAta w p m := (ataKey w p m, 255)
  findAta_ata w p m := by simp
  findAta_u8 w p m := by show 255 < 256; decide
  ata_inj := by
    intro w p m b w' p' m' b' k h h'
    split at h
    · split at h'
      · injection h with h; injection h' with h'
        have e : Nat.pair w (Nat.pair p m) = Nat.pair w' (Nat.pair p' m') := by unfold ataKey at *; omega
        rw [Nat.pair_eq_pair, Nat.pair_eq_pair] at e
        exact ⟨e.1, e.2.1, e.2.2⟩
      · cases h'
    · cases h
  pool_ne_fee := by decide
  spl_ne_22 := by decide

/-- Calculator programs 31 (1:1) and 32 (Lido-style, 3 SOL for 2 tokens). -/
def calcF (p : Pubkey) (_ : List Acc) (q : CalcReq) : R Range :=
  let c : Calculator := if p = 31 then wsolCalculator else (⟨0, 2, 3⟩ : LidoCalc).calculator .ex
  match q with
  | .lstToSol a => c.lstToSol a
  | .solToLst v => c.solToLst v

/-- Pricing program charging 1% on swaps and withdrawals. -/
def priceF (_ : Pubkey) (_ : List Acc) (q : PriceReq) : R Nat :=
  match q with
  | .exactIn _ v => .ok (v * 99 / 100)
  | .exactOut _ v => .ok (cdiv (v * 100) 99)
  | .lpTokensToMint _ v => .ok v
  | .lpTokensToRedeem _ v => .ok (v * 99 / 100)

def env : Env cfg := Env.pure cfg calcF priceF

/-- LP mint 20, LST mints 21 and 22, user 40 with token accounts 41 (LST 21), 42 (LST 22), 43 (LP); programs 31, 32, 33. -/
def led : Ledger where
  tok k :=
    if k = 41 then some ⟨8, 21, 40, 1000000⟩
    else if k = 42 then some ⟨8, 22, 40, 1000000⟩
    else if k = 43 then some ⟨8, 20, 40, 0⟩
    else if k = 44 then some ⟨8, 21, 60, 0⟩
    else none
  mints k :=
    if k = 20 then some ⟨8, 0, 9, some 6, some 6⟩
    else if k = 21 then some ⟨8, 1000000, 9, none, none⟩
    else if k = 22 then some ⟨8, 1000000, 9, none, none⟩
    else none
  exec k := k = 31 ∨ k = 32 ∨ k = 33

def w0 : World := ⟨Ctl.init, led⟩

theorem w0_fresh : S.World.Fresh cfg w0 := by
  refine ⟨rfl, ?_, ?_, ?_⟩
  · intro k a h
    simp only [w0, led] at h
    split at h <;> [(injection h with h; subst h; decide); skip]
    split at h <;> [(injection h with h; subst h; decide); skip]
    split at h <;> [(injection h with h; subst h; decide); skip]
    split at h <;> [(injection h with h; subst h; decide); skip]
    cases h
  · intro k a h
    simp only [w0, led] at h
    split at h <;> [(injection h with h; subst h; decide); skip]
    split at h <;> [(injection h with h; subst h; decide); skip]
    split at h <;> [(injection h with h; subst h; decide); skip]
    cases h
  · intro w p m b k a h h'
    simp only [cfg] at h
    split at h
    · injection h with h
      have : 1000 ≤ k := by rw [← h]; exact Nat.le_add_right _ _
      simp only [w0, led] at h'
      have n : ∀ x : Nat, x < 1000 → k ≠ x := by rintro x hx rfl; exact absurd this (Nat.not_le.2 hx)
      rw [if_neg (n 41 (by decide)), if_neg (n 42 (by decide)), if_neg (n 43 (by decide)),
        if_neg (n 44 (by decide))] at h'
      cases h'
    · cases h

def ro (k : Pubkey) : Acc := ⟨k, false, false⟩
def rw (k : Pubkey) : Acc := ⟨k, false, true⟩
def sg (k : Pubkey) : Acc := ⟨k, true, true⟩

def resA := ataKey 1 8 21
def resB := ataKey 1 8 22
def feeA := ataKey 5 8 21
def feeB := ataKey 5 8 22

def call (accs : List Acc) (ix : Ix) : Step cfg := .controller ⟨env, accs, ix.encode⟩

def tInit : Tx cfg := [call [sg 6, sg 6, rw 1, rw 20, ro 8, ro 11] .initialize]
def tAddA : Tx cfg := [call [sg 6, sg 6, ro 21, rw resA, rw feeA, rw 5, ro 31, ro 1, rw 2, ro 10, ro 11, ro 8] .addLst]
def tAddB : Tx cfg := [call [sg 6, sg 6, ro 22, rw resB, rw feeB, rw 5, ro 32, ro 1, rw 2, ro 10, ro 11, ro 8] .addLst]
def liqA : List Acc := [sg 40, ro 21, rw 41, rw 43, rw 20, rw feeA, ro 8, ro 8, rw 1, rw 2, rw resA, ro 31, ro 7]
def liqB : List Acc := [sg 40, ro 22, rw 42, rw 43, rw 20, rw feeB, ro 8, ro 8, rw 1, rw 2, rw resB, ro 32, ro 7]
def tDepA : Tx cfg := [call liqA (.addLiquidity ⟨1, 0, 30000, 1⟩)]
def tDepB : Tx cfg := [call liqB (.addLiquidity ⟨1, 1, 20000, 1⟩)]
def swapAB : List Acc := [sg 40, ro 21, ro 22, rw 41, rw 42, rw feeB, ro 8, ro 8, rw 1, rw 2, rw resA, rw resB,
  ro 31, ro 32, ro 7]
def tSwapIn : Tx cfg := [call swapAB (.swapExactIn ⟨1, 1, 0, 1, 10, 3000⟩)]
def tSwapOut : Tx cfg := [call swapAB (.swapExactOut ⟨1, 1, 0, 1, 5000, 2000⟩)]
def tRedeem : Tx cfg := [call liqA (.removeLiquidity ⟨1, 0, 10000, 1⟩)]
def startB : List Acc := [sg 6, rw 1, rw 2, rw 4, ro 22, ro 21, rw resB, rw resA, rw 42, ro 12, ro 11, ro 8, ro 32, ro 31]
def endA : List Acc := [sg 6, rw 1, rw 2, rw 4, ro 21, rw resA, ro 31]

/-- Moves `n` tokens between two accounts if it can and no pool account would lose tokens. -/
def moveTokens (src dst : Pubkey) (n : Nat) (l : Ledger) : Ledger :=
  match l.tok src, l.tok dst with
  | some a, some b =>
    if src ≠ dst ∧ a.owner ≠ 1 ∧ a.owner ≠ 5 ∧ a.mint = b.mint ∧ n ≤ a.amount ∧ b.amount + n < U64
    then (l.setTok src (some { a with amount := a.amount - n })).setTok dst (some { b with amount := b.amount + n })
    else l
  | _, _ => l

theorem moveTokens_ok (src dst : Pubkey) (n : Nat) (l : Ledger) : l.ExtOk cfg (moveTokens src dst n l) := by
  unfold moveTokens
  split
  · rename_i a b ha hb
    split
    · rename_i h
      obtain ⟨hne, h1, h5, hm, hn, hu⟩ := h
      refine ⟨fun hw => ⟨?_, hw.mint_u64, ?_⟩, ?_, fun k m h => ⟨m, h, rfl, rfl⟩, ?_, ?_, fun _ h => h⟩
      · intro k x hx
        simp only [Ledger.setTok, upd] at hx
        split at hx
        · injection hx with hx; subst hx; exact hu
        · split at hx
          · injection hx with hx; subst hx
            have := hw.tok_u64 _ _ ha
            show a.amount - n < U64; omega
          · exact hw.tok_u64 _ _ hx
      · intro w p m b' k x hk hx
        simp only [Ledger.setTok, upd] at hx
        split at hx
        · rename_i e; subst e; injection hx with hx; subst hx; exact hw.ata w p m b' _ b hk hb
        · split at hx
          · rename_i e; subst e; injection hx with hx; subst hx; exact hw.ata w p m b' _ a hk ha
          · exact hw.ata w p m b' k x hk hx
      · intro k x hx ho
        by_cases e : k = dst
        · subst e; rw [hb] at hx; injection hx with hx; subst hx
          exact ⟨b.amount + n, Nat.le_add_right _ _, by simp [Ledger.setTok]⟩
        · by_cases e' : k = src
          · subst e'; rw [ha] at hx; injection hx with hx; subst hx
            rcases ho with ho | ho
            · exact absurd ho h1
            · exact absurd ho h5
          · exact ⟨x.amount, Nat.le_refl _, by simp [Ledger.setTok, upd, e, e', hx]⟩
      · intro k m m' h h' ha'
        have e : some m = some m' := h.symm.trans h'
        injection e with e; subst e; exact ⟨ha', Nat.le_refl _⟩
      · intro k m m' h h' ha'
        have e : some m = some m' := h.symm.trans h'
        injection e with e; subst e; exact ha'
    · exact .refl _ _
  · exact .refl _ _

/-- A foreign program paying tokens from the rebalancer's side into the pool. -/
def payA : Step cfg := .foreign ⟨77, [], []⟩ (by decide) [.ext (moveTokens 41 resA 6000) (moveTokens_ok _ _ _)]

def tRebalance : Tx cfg :=
  [call startB (.startRebalance ⟨1, 1, 0, 4000, 0, 1000000⟩), payA, call endA .endRebalance]

def hist : List (Tx cfg) := [tInit, tAddA, tAddB, tDepA, tDepB, tSwapIn, tSwapOut, tRedeem, tRebalance]

/-- The state after the first `n` transactions. -/
def st (n : Nat) : World := runHistory .ex w0 (hist.take n)

/-! Administration -/

def tAddAuth : Tx cfg := [call [sg 6, sg 6, ro 1, ro 50, rw 3, ro 11] .addDisablePoolAuthority]
def tAddAuth2 : Tx cfg := [call [sg 6, sg 6, ro 1, ro 51, rw 3, ro 11] .addDisablePoolAuthority]
/-- Removed by the authority itself. -/
def tRemoveAuth : Tx cfg := [call [rw 52, sg 51, ro 51, ro 1, rw 3] (.removeDisablePoolAuthority 1)]
def tDisable : Tx cfg := [call [sg 50, rw 1, ro 3] .disablePool]
def tEnable : Tx cfg := [call [sg 6, rw 1] .enablePool]
def tSetFee : Tx cfg := [call [sg 6, rw 1] (.setProtocolFee ⟨some 2000, none⟩)]
def tSetBeneficiary : Tx cfg := [call [sg 6, ro 61, rw 1] .setProtocolFeeBeneficiary]
def tSetPricing : Tx cfg := [call [sg 6, ro 33, rw 1] .setPricingProgram]
def tSetRebAuth : Tx cfg := [call [sg 6, ro 62, rw 1] .setRebalanceAuthority]
def tDisableInput : Tx cfg := [call [sg 6, ro 21, rw 1, rw 2] (.disableLstInput 0)]
def tEnableInput : Tx cfg := [call [sg 6, ro 21, rw 1, rw 2] (.enableLstInput 0)]
def tSetCalc : Tx cfg := [call [sg 6, ro 21, rw 1, rw resA, rw 2, ro 32] (.setSolValueCalculator 0)]
def tSetCalcBack : Tx cfg := [call [sg 6, ro 21, rw 1, rw resA, rw 2, ro 31] (.setSolValueCalculator 0)]
def tSync : Tx cfg := [call [ro 21, rw 1, rw 2, rw resA, ro 31] (.syncSolValue 0)]
/-- Signed by the new beneficiary, 61. -/
def tWithdraw : Tx cfg := [call [sg 61, rw 42, rw feeB, rw 5, ro 8, rw 1, ro 22] (.withdrawProtocolFees 2)]
def tSetAdmin : Tx cfg := [call [sg 6, ro 63, rw 1] .setAdmin]
def tRemoveA : Tx cfg := [call [sg 6, rw 52, ro 21, rw resA, rw feeA, rw 5, ro 1, rw 2, ro 8] (.removeLst 0)]

/-- `hist` followed by administration. -/
def hist2 : List (Tx cfg) := hist ++ [tAddAuth, tAddAuth2, tRemoveAuth, tDisable, tEnable, tSetFee, tSetBeneficiary,
  tSetPricing, tSetRebAuth, tDisableInput, tEnableInput, tSetCalc, tSetCalcBack, tSync, tWithdraw, tSetAdmin]

/-- A short history in which an LST is listed and removed again. -/
def histRemove : List (Tx cfg) := [tInit, tAddA, tAddB, tRemoveA]

def st2 (n : Nat) : World := runHistory .ex w0 (hist2.take n)

theorem st_reachable (n : Nat) : Reachable cfg .ex (st n) := ⟨w0, w0_fresh, _, rfl⟩
theorem st2_reachable (n : Nat) : Reachable cfg .ex (st2 n) := ⟨w0, w0_fresh, _, rfl⟩

end S.Ex
