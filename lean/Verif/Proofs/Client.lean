import Verif.Client
import Verif.Props.Data
import Verif.Proofs.UserRuns
import Verif.Proofs.AdminRuns
import Mathlib.Data.List.Forall2
/-
Helper lemmas about the client library: what it builds, and how the program reads it.
-/
set_option autoImplicit false
namespace S

/-- How an account of an instruction the client built appears to the program: same account; when the message is compiled,
an account that is also used elsewhere in the transaction may become a signer or writable. -/
structure Escalates (a b : Acc) : Prop where
  key : b.key = a.key
  signer : a.signer = true → b.signer = true
  writable : a.writable = true → b.writable = true

/-- The whole account list as the program sees it. -/
def SeenAs (client chain : List Acc) : Prop := List.Forall₂ Escalates client chain

theorem Escalates.refl (a : Acc) : Escalates a a := ⟨rfl, id, id⟩

theorem SeenAs.refl (as : List Acc) : SeenAs as as := by
  induction as with
  | nil => exact .nil
  | cons a as ih => exact .cons (.refl a) ih

theorem SeenAs.length {as bs : List Acc} (h : SeenAs as bs) : bs.length = as.length := (List.Forall₂.length_eq h).symm

theorem SeenAs.split {a b l : List Acc} (h : SeenAs (a ++ b) l) :
    ∃ l1 l2, l = l1 ++ l2 ∧ SeenAs a l1 ∧ SeenAs b l2 := by
  induction a generalizing l with
  | nil => exact ⟨[], l, rfl, .nil, h⟩
  | cons x a ih =>
    cases h with
    | cons hx ht =>
      obtain ⟨l1, l2, rfl, h1, h2⟩ := ih ht
      exact ⟨_ :: l1, l2, rfl, .cons hx h1, h2⟩

theorem SeenAs.cons_inv {x : Acc} {b l : List Acc} (h : SeenAs (x :: b) l) :
    ∃ y l', l = y :: l' ∧ Escalates x y ∧ SeenAs b l' := by
  cases h with
  | cons hx ht => exact ⟨_, _, rfl, hx, ht⟩

theorem SeenAs.append {a b a' b' : List Acc} (h : SeenAs a a') (h' : SeenAs b b') : SeenAs (a ++ b) (a' ++ b') := by
  induction h with
  | nil => exact h'
  | cons hx _ ih => exact .cons hx ih

/-! ### Congruence of the processors in the answers they use -/

theorem bind_congr_ok {α β : Type} {x : R α} {f g : α → R β} (h : ∀ a, x = .ok a → f a = g a) :
    (x >>= f) = (x >>= g) := by
  cases x with
  | error e => rfl
  | ok a => exact h a rfl

def CalcSame {cfg : Cfg} (env env' : Env cfg) (c : CalcCpi) : Prop :=
  ∀ n w q, c.ask env n w q = c.ask env' n w q
def PriceSame {cfg : Cfg} (env env' : Env cfg) (c : PriceCpi) : Prop :=
  ∀ n w q, c.ask env n w q = c.ask env' n w q

theorem processSync_congr {cfg : Cfg} {env env' : Env cfg} {w : World} {accs : List Acc} {i : Nat}
    (h : ∀ a suf c, SyncAccs.load accs = .ok (a, suf) → verifySync cfg w a suf i = .ok c → CalcSame env env' c) :
    processSync cfg env w accs i = processSync cfg env' w accs i := by
  unfold processSync
  refine bind_congr_ok fun x hx => ?_
  obtain ⟨a, suf⟩ := x
  refine bind_congr_ok fun c hc => ?_
  have h1 : ∀ n w q, c.ask env n w q = c.ask env' n w q := h a suf c hx hc
  simp only [syncUnchecked, h1]

theorem processSwapExactIn_congr {cfg : Cfg} {L : RatioLib} {env env' : Env cfg} {w : World} {accs : List Acc}
    {args : SwapExactInArgs}
    (h : ∀ a suf c, SwapAccs.load accs = .ok (a, suf) →
      verifySwap cfg w a suf args.srcLstValueCalcAccs args.dstLstValueCalcAccs args.srcLstIndex args.dstLstIndex = .ok c →
      CalcSame env env' c.src ∧ CalcSame env env' c.dst ∧ PriceSame env env' c.pricing) :
    processSwapExactIn cfg L env w accs args = processSwapExactIn cfg L env' w accs args := by
  unfold processSwapExactIn
  refine bind_congr_ok fun _ _ => ?_
  refine bind_congr_ok fun x hx => ?_
  obtain ⟨a, suf⟩ := x
  refine bind_congr_ok fun c hc => ?_
  obtain ⟨h1, h2, h3⟩ := h a suf c hx hc
  unfold CalcSame at h1 h2
  unfold PriceSame at h3
  simp only [syncUnchecked, finishSwap, h1, h2, h3]

theorem processSwapExactOut_congr {cfg : Cfg} {L : RatioLib} {env env' : Env cfg} {w : World} {accs : List Acc}
    {args : SwapExactOutArgs}
    (h : ∀ a suf c, SwapAccs.load accs = .ok (a, suf) →
      verifySwap cfg w a suf args.srcLstValueCalcAccs args.dstLstValueCalcAccs args.srcLstIndex args.dstLstIndex = .ok c →
      CalcSame env env' c.src ∧ CalcSame env env' c.dst ∧ PriceSame env env' c.pricing) :
    processSwapExactOut cfg L env w accs args = processSwapExactOut cfg L env' w accs args := by
  unfold processSwapExactOut
  refine bind_congr_ok fun _ _ => ?_
  refine bind_congr_ok fun x hx => ?_
  obtain ⟨a, suf⟩ := x
  refine bind_congr_ok fun c hc => ?_
  obtain ⟨h1, h2, h3⟩ := h a suf c hx hc
  unfold CalcSame at h1 h2
  unfold PriceSame at h3
  simp only [syncUnchecked, finishSwap, h1, h2, h3]

theorem processAddLiquidity_congr {cfg : Cfg} {L : RatioLib} {env env' : Env cfg} {w : World} {accs : List Acc}
    {args : AddLiquidityArgs}
    (h : ∀ a suf c, LiqAccs.load accs = .ok (a, suf) →
      verifyLiq cfg w a suf args.lstValueCalcAccs args.lstIndex true = .ok c →
      CalcSame env env' c.lst ∧ PriceSame env env' c.pricing) :
    processAddLiquidity cfg L env w accs args = processAddLiquidity cfg L env' w accs args := by
  unfold processAddLiquidity
  refine bind_congr_ok fun _ _ => ?_
  refine bind_congr_ok fun x hx => ?_
  obtain ⟨a, suf⟩ := x
  refine bind_congr_ok fun c hc => ?_
  obtain ⟨h1, h3⟩ := h a suf c hx hc
  unfold CalcSame at h1
  unfold PriceSame at h3
  simp only [syncUnchecked, h1, h3]

theorem processRemoveLiquidity_congr {cfg : Cfg} {L : RatioLib} {env env' : Env cfg} {w : World} {accs : List Acc}
    {args : RemoveLiquidityArgs}
    (h : ∀ a suf c, LiqAccs.load accs = .ok (a, suf) →
      verifyLiq cfg w a suf args.lstValueCalcAccs args.lstIndex false = .ok c →
      CalcSame env env' c.lst ∧ PriceSame env env' c.pricing) :
    processRemoveLiquidity cfg L env w accs args = processRemoveLiquidity cfg L env' w accs args := by
  unfold processRemoveLiquidity
  refine bind_congr_ok fun _ _ => ?_
  refine bind_congr_ok fun x hx => ?_
  obtain ⟨a, suf⟩ := x
  refine bind_congr_ok fun c hc => ?_
  obtain ⟨h1, h3⟩ := h a suf c hx hc
  unfold CalcSame at h1
  unfold PriceSame at h3
  simp only [syncUnchecked, h1, h3]

theorem processStartRebalance_congr {cfg : Cfg} {env env' : Env cfg} {tx : TxInfo} {w : World} {accs : List Acc}
    {args : StartRebalanceArgs}
    (h : ∀ a suf c, StartRebAccs.load accs = .ok (a, suf) → verifyStartRebalance cfg tx w a suf args = .ok c →
      CalcSame env env' c.src ∧ CalcSame env env' c.dst) :
    processStartRebalance cfg env tx w accs args = processStartRebalance cfg env' tx w accs args := by
  unfold processStartRebalance
  refine bind_congr_ok fun x hx => ?_
  obtain ⟨a, suf⟩ := x
  refine bind_congr_ok fun c hc => ?_
  obtain ⟨h1, h3⟩ := h a suf c hx hc
  unfold CalcSame at h1 h3
  simp only [syncUnchecked, h1, h3]

theorem processEndRebalance_congr {cfg : Cfg} {env env' : Env cfg} {w : World} {accs : List Acc}
    (h : ∀ a suf i c, EndRebAccs.load accs = .ok (a, suf) → verifyCalcCpi w.ctl.lsts a.dstLstMint.key suf i = .ok c →
      CalcSame env env' c) :
    processEndRebalance cfg env w accs = processEndRebalance cfg env' w accs := by
  unfold processEndRebalance
  refine bind_congr_ok fun x hx => ?_
  obtain ⟨a, suf⟩ := x
  refine bind_congr_ok fun _ _ => ?_
  refine bind_congr_ok fun _ _ => ?_
  refine bind_congr_ok fun _ _ => ?_
  refine bind_congr_ok fun _ _ => ?_
  refine bind_congr_ok fun rr _ => ?_
  refine bind_congr_ok fun _ _ => ?_
  refine bind_congr_ok fun _ _ => ?_
  refine bind_congr_ok fun _ _ => ?_
  refine bind_congr_ok fun _ _ => ?_
  refine bind_congr_ok fun _ _ => ?_
  refine bind_congr_ok fun _ _ => ?_
  refine bind_congr_ok fun _ _ => ?_
  refine bind_congr_ok fun c hc => ?_
  have h1 : ∀ n w q, c.ask env n w q = c.ask env' n w q := h a suf _ c hx hc
  simp only [syncUnchecked, h1]

theorem processSetCalc_congr {cfg : Cfg} {env env' : Env cfg} {w : World} {accs : List Acc} {i : Nat}
    (h : ∀ a suf c, SetCalcAccs.load accs = .ok (a, suf) → CalcCpi.ofSuffix a.lstMint.key suf = .ok c →
      CalcSame env env' c) :
    processSetSolValueCalculator cfg env w accs i = processSetSolValueCalculator cfg env' w accs i := by
  unfold processSetSolValueCalculator
  refine bind_congr_ok fun x hx => ?_
  obtain ⟨a, suf⟩ := x
  refine bind_congr_ok fun _ _ => ?_
  refine bind_congr_ok fun _ _ => ?_
  refine bind_congr_ok fun _ _ => ?_
  refine bind_congr_ok fun _ _ => ?_
  refine bind_congr_ok fun _ _ => ?_
  refine bind_congr_ok fun _ _ => ?_
  refine bind_congr_ok fun _ _ => ?_
  refine bind_congr_ok fun _ _ => ?_
  refine bind_congr_ok fun _ _ => ?_
  refine bind_congr_ok fun _ _ => ?_
  refine bind_congr_ok fun c hc => ?_
  have h1 : ∀ n w q, c.ask env n w q = c.ask env' n w q := h a suf c hx hc
  simp only [syncUnchecked, h1]

/-! ### What the client builds -/

theorem countU8_ok {n m : Nat} : countU8 n = .ok m ↔ n ≤ 255 ∧ m = n := by
  simp only [countU8, bind_ok, require_ok, exists_const, pure_ok]
  constructor
  · rintro ⟨h, rfl⟩; exact ⟨h, rfl⟩
  · rintro ⟨h, rfl⟩; exact ⟨h, rfl⟩

theorem indexToU32_ok {n m : Nat} : indexToU32 n = .ok m ↔ n < 2 ^ 32 ∧ m = n := by
  simp only [indexToU32, bind_ok, require_ok, exists_const, pure_ok]
  constructor
  · rintro ⟨h, rfl⟩; exact ⟨h, rfl⟩
  · rintro ⟨h, rfl⟩; exact ⟨h, rfl⟩

theorem extendOne_ok {accs metas out : List Acc} {prog : Pubkey} {n : Nat} :
    extendOne accs metas prog = .ok (out, n) ↔
      metas.length ≤ 255 ∧ out = accs ++ roMeta prog :: metas.drop 1 ∧ n = metas.length := by
  simp only [extendOne, bind_ok, countU8_ok, pure_ok, Prod.mk.injEq]
  constructor
  · rintro ⟨m, ⟨h, rfl⟩, rfl, rfl⟩; exact ⟨h, rfl, rfl⟩
  · rintro ⟨h, rfl, rfl⟩; exact ⟨_, ⟨h, rfl⟩, rfl, rfl⟩

theorem extendSwap_ok {accs metas out : List Acc} {prog : Pubkey} {n : Nat} :
    extendSwap accs metas prog = .ok (out, n) ↔
      1 ≤ metas.length ∧ metas.length - 1 ≤ 255 ∧ out = accs ++ roMeta prog :: metas.drop 2 ∧ n = metas.length - 1 := by
  simp only [extendSwap, bind_ok, require_ok, exists_const, countU8_ok, pure_ok, Prod.mk.injEq]
  constructor
  · rintro ⟨h0, m, ⟨h, rfl⟩, rfl, rfl⟩; exact ⟨h0, h, rfl, rfl⟩
  · rintro ⟨h0, h, rfl, rfl⟩; exact ⟨h0, _, ⟨h, rfl⟩, rfl, rfl⟩

theorem extendSrcDst_ok {accs out : List Acc} {src dst : Callee} {n m : Nat} :
    extendSrcDst accs src dst = .ok (out, n, m) ↔
      src.metas.length ≤ 255 ∧ dst.metas.length ≤ 255 ∧
      out = accs ++ roMeta src.program :: src.metas.drop 1 ++ roMeta dst.program :: dst.metas.drop 1 ∧
      n = src.metas.length ∧ m = dst.metas.length := by
  simp only [extendSrcDst, bind_ok, Prod.exists, extendOne_ok, pure_ok, Prod.mk.injEq]
  constructor
  · rintro ⟨_, _, ⟨h1, rfl, rfl⟩, _, _, ⟨h2, rfl, rfl⟩, rfl, rfl, rfl⟩; exact ⟨h1, h2, rfl, rfl, rfl⟩
  · rintro ⟨h1, h2, rfl, rfl, rfl⟩; exact ⟨_, _, ⟨h1, rfl, rfl⟩, _, _, ⟨h2, rfl, rfl⟩, rfl, rfl, rfl⟩

theorem overwrite_same {old new : List UInt8} (h : old.length = new.length) : overwrite old new = new := by
  rw [overwrite, List.drop_of_length_le (Nat.le_of_eq h), List.append_nil]

theorem encode_length_swapIn (a b : SwapExactInArgs) :
    (Ix.swapExactIn a).encode.length = (Ix.swapExactIn b).encode.length := by
  simp only [Ix.encode, Ix.argBytes, List.length_cons, List.length_append, toLE_length]
theorem encode_length_swapOut (a b : SwapExactOutArgs) :
    (Ix.swapExactOut a).encode.length = (Ix.swapExactOut b).encode.length := by
  simp only [Ix.encode, Ix.argBytes, List.length_cons, List.length_append, toLE_length]
theorem encode_length_add (a b : AddLiquidityArgs) :
    (Ix.addLiquidity a).encode.length = (Ix.addLiquidity b).encode.length := by
  simp only [Ix.encode, Ix.argBytes, List.length_cons, List.length_append, toLE_length]
theorem encode_length_remove (a b : RemoveLiquidityArgs) :
    (Ix.removeLiquidity a).encode.length = (Ix.removeLiquidity b).encode.length := by
  simp only [Ix.encode, Ix.argBytes, List.length_cons, List.length_append, toLE_length]
theorem encode_length_start (a b : StartRebalanceArgs) :
    (Ix.startRebalance a).encode.length = (Ix.startRebalance b).encode.length := by
  simp only [Ix.encode, Ix.argBytes, List.length_cons, List.length_append, toLE_length]

/-! ### How the program reads the account list -/

def SyncAccs.list (a : SyncAccs) : List Acc := [a.lstMint, a.poolState, a.lstStateList, a.poolReserves]
def SwapAccs.list (a : SwapAccs) : List Acc := [a.signer, a.srcLstMint, a.dstLstMint, a.srcLstAcc, a.dstLstAcc,
  a.protocolFeeAccumulator, a.srcLstTokenProgram, a.dstLstTokenProgram, a.poolState, a.lstStateList, a.srcPoolReserves,
  a.dstPoolReserves]
def LiqAccs.list (a : LiqAccs) : List Acc := [a.signer, a.lstMint, a.userLst, a.userLp, a.lpTokenMint,
  a.protocolFeeAccumulator, a.lstTokenProgram, a.lpTokenProgram, a.poolState, a.lstStateList, a.poolReserves]
def SetCalcAccs.list (a : SetCalcAccs) : List Acc := [a.admin, a.lstMint, a.poolState, a.poolReserves, a.lstStateList]
def StartRebAccs.list (a : StartRebAccs) : List Acc := [a.rebalanceAuthority, a.poolState, a.lstStateList,
  a.rebalanceRecord, a.srcLstMint, a.dstLstMint, a.srcPoolReserves, a.dstPoolReserves, a.withdrawTo, a.instructions,
  a.systemProgram, a.srcLstTokenProgram]
def EndRebAccs.list (a : EndRebAccs) : List Acc := [a.rebalanceAuthority, a.poolState, a.lstStateList,
  a.rebalanceRecord, a.dstLstMint, a.dstPoolReserves]

theorem seen_sync {k : SyncKeys} {rest accs : List Acc} (h : SeenAs (k.metas ++ rest) accs) :
    ∃ a suf, SyncAccs.load accs = .ok (a, suf) ∧ SeenAs k.metas a.list ∧ SeenAs rest suf := by
  obtain ⟨l1, l2, rfl, h1, h2⟩ := h.split
  simp only [SyncKeys.metas, SeenAs, List.forall₂_cons_left_iff, List.forall₂_nil_left_iff] at h1
  obtain ⟨_, _, e1, ⟨_, _, e2, ⟨_, _, e3, ⟨_, _, e4, rfl, rfl⟩, rfl⟩, rfl⟩, rfl⟩ := h1
  exact ⟨⟨_, _, _, _⟩, l2, rfl, .cons e1 (.cons e2 (.cons e3 (.cons e4 .nil))), h2⟩

theorem seen_swap {k : SwapKeys} {rest accs : List Acc} (h : SeenAs (k.metas ++ rest) accs) :
    ∃ a suf, SwapAccs.load accs = .ok (a, suf) ∧ SeenAs k.metas a.list ∧ SeenAs rest suf := by
  obtain ⟨l1, l2, rfl, h1, h2⟩ := h.split
  simp only [SwapKeys.metas, SeenAs, List.forall₂_cons_left_iff, List.forall₂_nil_left_iff] at h1
  obtain ⟨_, _, e1, ⟨_, _, e2, ⟨_, _, e3, ⟨_, _, e4, ⟨_, _, e5, ⟨_, _, e6, ⟨_, _, e7, ⟨_, _, e8, ⟨_, _, e9,
    ⟨_, _, e10, ⟨_, _, e11, ⟨_, _, e12, rfl, rfl⟩, rfl⟩, rfl⟩, rfl⟩, rfl⟩, rfl⟩, rfl⟩, rfl⟩, rfl⟩, rfl⟩, rfl⟩, rfl⟩ := h1
  exact ⟨⟨_, _, _, _, _, _, _, _, _, _, _, _⟩, l2, rfl, .cons e1 (.cons e2 (.cons e3 (.cons e4 (.cons e5 (.cons e6
    (.cons e7 (.cons e8 (.cons e9 (.cons e10 (.cons e11 (.cons e12 .nil))))))))))), h2⟩

theorem seen_liq {k : LiqKeys} {rest accs : List Acc} (h : SeenAs (k.metas ++ rest) accs) :
    ∃ a suf, LiqAccs.load accs = .ok (a, suf) ∧ SeenAs k.metas a.list ∧ SeenAs rest suf := by
  obtain ⟨l1, l2, rfl, h1, h2⟩ := h.split
  simp only [LiqKeys.metas, SeenAs, List.forall₂_cons_left_iff, List.forall₂_nil_left_iff] at h1
  obtain ⟨_, _, e1, ⟨_, _, e2, ⟨_, _, e3, ⟨_, _, e4, ⟨_, _, e5, ⟨_, _, e6, ⟨_, _, e7, ⟨_, _, e8, ⟨_, _, e9,
    ⟨_, _, e10, ⟨_, _, e11, rfl, rfl⟩, rfl⟩, rfl⟩, rfl⟩, rfl⟩, rfl⟩, rfl⟩, rfl⟩, rfl⟩, rfl⟩, rfl⟩ := h1
  exact ⟨⟨_, _, _, _, _, _, _, _, _, _, _⟩, l2, rfl, .cons e1 (.cons e2 (.cons e3 (.cons e4 (.cons e5 (.cons e6
    (.cons e7 (.cons e8 (.cons e9 (.cons e10 (.cons e11 .nil)))))))))), h2⟩

theorem seen_setCalc {k : SetCalcKeys} {rest accs : List Acc} (h : SeenAs (k.metas ++ rest) accs) :
    ∃ a suf, SetCalcAccs.load accs = .ok (a, suf) ∧ SeenAs k.metas a.list ∧ SeenAs rest suf := by
  obtain ⟨l1, l2, rfl, h1, h2⟩ := h.split
  simp only [SetCalcKeys.metas, SeenAs, List.forall₂_cons_left_iff, List.forall₂_nil_left_iff] at h1
  obtain ⟨_, _, e1, ⟨_, _, e2, ⟨_, _, e3, ⟨_, _, e4, ⟨_, _, e5, rfl, rfl⟩, rfl⟩, rfl⟩, rfl⟩, rfl⟩ := h1
  exact ⟨⟨_, _, _, _, _⟩, l2, rfl, .cons e1 (.cons e2 (.cons e3 (.cons e4 (.cons e5 .nil)))), h2⟩

theorem seen_start {k : StartKeys} {rest accs : List Acc} (h : SeenAs (k.metas ++ rest) accs) :
    ∃ a suf, StartRebAccs.load accs = .ok (a, suf) ∧ SeenAs k.metas a.list ∧ SeenAs rest suf := by
  obtain ⟨l1, l2, rfl, h1, h2⟩ := h.split
  simp only [StartKeys.metas, SeenAs, List.forall₂_cons_left_iff, List.forall₂_nil_left_iff] at h1
  obtain ⟨_, _, e1, ⟨_, _, e2, ⟨_, _, e3, ⟨_, _, e4, ⟨_, _, e5, ⟨_, _, e6, ⟨_, _, e7, ⟨_, _, e8, ⟨_, _, e9,
    ⟨_, _, e10, ⟨_, _, e11, ⟨_, _, e12, rfl, rfl⟩, rfl⟩, rfl⟩, rfl⟩, rfl⟩, rfl⟩, rfl⟩, rfl⟩, rfl⟩, rfl⟩, rfl⟩, rfl⟩ := h1
  exact ⟨⟨_, _, _, _, _, _, _, _, _, _, _, _⟩, l2, rfl, .cons e1 (.cons e2 (.cons e3 (.cons e4 (.cons e5 (.cons e6
    (.cons e7 (.cons e8 (.cons e9 (.cons e10 (.cons e11 (.cons e12 .nil))))))))))), h2⟩

theorem seen_end {k : EndKeys} {rest accs : List Acc} (h : SeenAs (k.metas ++ rest) accs) :
    ∃ a suf, EndRebAccs.load accs = .ok (a, suf) ∧ SeenAs k.metas a.list ∧ SeenAs rest suf := by
  obtain ⟨l1, l2, rfl, h1, h2⟩ := h.split
  simp only [EndKeys.metas, SeenAs, List.forall₂_cons_left_iff, List.forall₂_nil_left_iff] at h1
  obtain ⟨_, _, e1, ⟨_, _, e2, ⟨_, _, e3, ⟨_, _, e4, ⟨_, _, e5, ⟨_, _, e6, rfl, rfl⟩, rfl⟩, rfl⟩, rfl⟩, rfl⟩, rfl⟩ := h1
  exact ⟨⟨_, _, _, _, _, _⟩, l2, rfl, .cons e1 (.cons e2 (.cons e3 (.cons e4 (.cons e5 (.cons e6 .nil))))), h2⟩

/-- The accounts reaching a program are the intended ones. -/
def Callee.Is (c : Callee) (prog : Pubkey) (metas : List Acc) : Prop := prog = c.program ∧ SeenAs c.metas metas

/-- The account slice of one LST calculator, as built and as seen. -/
theorem calc_is {c : Callee} {mint : Pubkey} {rest slice : List Acc} {x : CalcCpi} (hm : c.metas = roMeta mint :: rest)
    (hs : SeenAs (roMeta c.program :: c.metas.drop 1) slice) (hx : CalcCpi.ofSuffix mint slice = .ok x) :
    c.Is x.program x.metas := by
  obtain ⟨y, l', rfl, e, h⟩ := hs.cons_inv
  simp only [CalcCpi.ofSuffix, Except.ok.injEq] at hx
  subst hx
  refine ⟨e.key, ?_⟩
  rw [hm] at h ⊢
  exact .cons (.refl _) h

theorem calc_is' {c : Callee} {mint : Pubkey} {rest slice : List Acc} {x : CalcCpi} {ls : List LstState} {i : Nat}
    (hm : c.metas = roMeta mint :: rest) (hs : SeenAs (roMeta c.program :: c.metas.drop 1) slice)
    (hx : verifyCalcCpi ls mint slice i = .ok x) : c.Is x.program x.metas := by
  simp only [verifyCalcCpi, bind_ok, require_ok, exists_const, pure_ok] at hx
  obtain ⟨y, hy, _, _, _, rfl⟩ := hx
  exact calc_is hm hs hy

theorem priceLp_is {c : Callee} {mint : Pubkey} {rest slice : List Acc} {x : PriceCpi} {p : PoolState}
    (hm : c.metas = roMeta mint :: rest)
    (hs : SeenAs (roMeta c.program :: c.metas.drop 1) slice) (hx : verifyPriceCpi p [mint] slice = .ok x) :
    c.Is x.program x.metas := by
  obtain ⟨y, l', rfl, e, h⟩ := hs.cons_inv
  obtain ⟨_, _, h', rfl, _⟩ := verifyPriceCpi_ok.1 hx
  injection h' with h1 h2; subst h1; subst h2
  refine ⟨e.key, ?_⟩
  rw [hm] at h ⊢
  exact .cons (.refl _) h

theorem priceSwap_is {c : Callee} {m1 m2 : Pubkey} {rest slice : List Acc} {x : PriceCpi} {p : PoolState}
    (hm : c.metas = roMeta m1 :: roMeta m2 :: rest)
    (hs : SeenAs (roMeta c.program :: c.metas.drop 2) slice) (hx : verifyPriceCpi p [m1, m2] slice = .ok x) :
    c.Is x.program x.metas := by
  obtain ⟨y, l', rfl, e, h⟩ := hs.cons_inv
  obtain ⟨_, _, h', rfl, _⟩ := verifyPriceCpi_ok.1 hx
  injection h' with h1 h2; subst h1; subst h2
  refine ⟨e.key, ?_⟩
  rw [hm] at h ⊢
  exact .cons (.refl _) (.cons (.refl _) h)

theorem splitAt_append {a b : List Acc} {n : Nat} (h : a.length = n) : splitAt (a ++ b) n = .ok (a, b) := by
  subst h
  exact splitAt_ok.2 ⟨by simp, by simp, by simp⟩

theorem tail_len {c : Callee} {x : Acc} {rest slice : List Acc} (hm : c.metas = x :: rest)
    (hs : SeenAs (roMeta c.program :: c.metas.drop 1) slice) : slice.length = c.metas.length := by
  rw [hs.length, hm]; simp

theorem srcDst_split {ls : List LstState} {sm dm : Pubkey} {a b : List Acc} {n i j : Nat} (h : a.length = n) :
    verifySrcDstCpis ls sm dm (a ++ b) n i j = (do
      let src ← verifyCalcCpi ls sm a i
      let dst ← verifyCalcCpi ls dm b j
      pure ⟨src, dst⟩) := by
  rw [verifySrcDstCpis, splitAt_append h]; rfl

theorem swap_split {ls : List LstState} {p : PoolState} {sm dm : Pubkey} {a b c : List Acc} {n m i j : Nat}
    (h : a.length = n) (h' : b.length = m) :
    verifySwapCpis ls p sm dm (a ++ b ++ c) n m i j = (do
      let src ← verifyCalcCpi ls sm a i
      let dst ← verifyCalcCpi ls dm b j
      let pricing ← verifyPriceCpi p [sm, dm] c
      pure ⟨src, dst, pricing⟩) := by
  have e : (a ++ b).length = n + m := by simp [h, h']
  rw [verifySwapCpis, splitAt_append e]
  show (verifySrcDstCpis ls sm dm (a ++ b) n i j >>= _) = _
  rw [srcDst_split h]
  cases verifyCalcCpi ls sm a i with
  | error e => rfl
  | ok s => cases verifyCalcCpi ls dm b j with
    | error e => rfl
    | ok d => rfl

theorem lp_split {ls : List LstState} {p : PoolState} {mint : Pubkey} {a b : List Acc} {n i : Nat} (h : a.length = n) :
    verifyLpCpis ls p mint (a ++ b) n i = (do
      let lst ← verifyCalcCpi ls mint a i
      let pricing ← verifyPriceCpi p [mint] b
      pure ⟨lst, pricing⟩) := by
  rw [verifyLpCpis, splitAt_append h]; rfl

/-! ### Lookup -/

theorem findFrom_some {α : Type} {p : α → Bool} {l : List α} {k i : Nat} {s : α} :
    findFrom p k l = some (i, s) ↔
      ∃ j, i = k + j ∧ l[j]? = some s ∧ p s = true ∧ ∀ n t, n < j → l[n]? = some t → p t = false := by
  induction l generalizing k with
  | nil => simp [findFrom]
  | cons x l ih =>
    simp only [findFrom]
    split
    · rename_i hx
      constructor
      · intro h; injection h with h; injection h with h1 h2; subst h1; subst h2
        exact ⟨0, rfl, rfl, hx, fun n t h => absurd h (Nat.not_lt_zero _)⟩
      · rintro ⟨j, rfl, hj, hp, hmin⟩
        cases j with
        | zero => simp at hj; subst hj; rfl
        | succ j => have := hmin 0 x (Nat.succ_pos _) rfl; simp [hx] at this
    · rename_i hx
      rw [ih]
      constructor
      · rintro ⟨j, rfl, hj, hp, hmin⟩
        refine ⟨j + 1, by omega, by simpa using hj, hp, ?_⟩
        intro n t hn ht
        cases n with
        | zero => simp at ht; subst ht; simpa using hx
        | succ n => exact hmin n t (by omega) (by simpa using ht)
      · rintro ⟨j, rfl, hj, hp, hmin⟩
        cases j with
        | zero => simp at hj; subst hj; exact absurd hp hx
        | succ j =>
          exact ⟨j, by omega, by simpa using hj, hp, fun n t hn ht => hmin (n + 1) t (by omega) (by simpa using ht)⟩

theorem findFrom_none {α : Type} {p : α → Bool} {l : List α} {k : Nat} :
    findFrom p k l = none ↔ ∀ s ∈ l, p s = false := by
  induction l generalizing k with
  | nil => simp [findFrom]
  | cons x l ih =>
    simp only [findFrom, List.forall_mem_cons]
    split
    · rename_i hx; simp [hx]
    · rename_i hx; rw [ih]; simp [hx]

theorem findLst_ok {m : Pubkey} {ls : List LstState} {i : Nat} {s : LstState} :
    findLst m ls = .ok (i, s) ↔ ls[i]? = some s ∧ s.mint = m ∧ ∀ n t, n < i → ls[n]? = some t → t.mint ≠ m := by
  rw [findLst, okOr_ok, findFrom_some]
  simp

theorem findAuth_some {k : Pubkey} {l : List Pubkey} {i : Nat} {s : Pubkey} :
    findAuth k l = some (i, s) ↔ l[i]? = some s ∧ s = k ∧ ∀ n t, n < i → l[n]? = some t → t ≠ k := by
  rw [findAuth, findFrom_some]
  simp

end S
