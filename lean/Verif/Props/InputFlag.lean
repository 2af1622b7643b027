import Verif.Props.Lists
/-
C34, second half: what leaves the pool is unaffected by the input flag. Setting the flag of one entry commutes with redemptions, with
swaps and rebalances not into that entry's LST, and with syncing.
-/
set_option autoImplicit false
namespace S

/-- The world with the input flag of entry `j` set to `b` and nothing else changed. -/
def World.setFlag (j b : Nat) (w : World) : World :=
  { w with ctl := { w.ctl with lsts := w.ctl.lsts.modify j (fun s : LstState => { s with isInputDisabled := b }) } }

/-- One entry with its flag set if it is entry `j`. -/
def LstState.flagAt (j b i : Nat) (s : LstState) : LstState := if j = i then { s with isInputDisabled := b } else s

section
variable {j b : Nat}

theorem R_map_bind {α β γ : Type} (x : R α) (f : α → β) (g : β → R γ) : (x.map f >>= g) = x >>= fun a => g (f a) := by cases x <;> rfl
theorem R_bind_map {α β γ : Type} (x : R α) (g : α → R β) (f : β → γ) : (x >>= g).map f = x >>= fun a => (g a).map f := by cases x <;> rfl
theorem R_pure_map {α β : Type} (a : α) (f : α → β) : (pure a : R α).map f = pure (f a) := rfl
theorem R_assoc {α β γ : Type} (x : R α) (f : α → R β) (g : β → R γ) : (x >>= f) >>= g = x >>= fun a => f a >>= g := by cases x <;> rfl

variable (j b)

theorem getPool_flag (w : World) : getPool (w.setFlag j b) = getPool w := rfl
theorem led_flag (w : World) : (w.setFlag j b).led = w.led := rfl
theorem rebal_flag (w : World) : (w.setFlag j b).ctl.rebal = w.ctl.rebal := rfl
theorem setLed_flag (w : World) (l : Ledger) : ({ w.setFlag j b with led := l } : World) = ({ w with led := l } : World).setFlag j b := rfl
theorem total_flag (w : World) : totalSolValue (w.setFlag j b) = totalSolValue w := rfl

theorem get_flag (ls : List LstState) (i : Nat) :
    (ls.modify j (fun s : LstState => { s with isInputDisabled := b }))[i]? = (ls[i]?).map (LstState.flagAt j b i) := by
  rw [List.getElem?_modify]
  cases ls[i]? with
  | none => rfl
  | some s => unfold LstState.flagAt; split <;> simp_all

theorem lsts_flag (w : World) (i : Nat) : (w.setFlag j b).ctl.lsts[i]? = (w.ctl.lsts[i]?).map (LstState.flagAt j b i) := get_flag j b _ i

theorem flagAt_mint (i : Nat) (s : LstState) : (s.flagAt j b i).mint = s.mint := by unfold LstState.flagAt; split <;> rfl
theorem flagAt_prog (i : Nat) (s : LstState) : (s.flagAt j b i).solValueCalculator = s.solValueCalculator := by
  unfold LstState.flagAt; split <;> rfl
theorem flagAt_val (i : Nat) (s : LstState) : (s.flagAt j b i).solValue = s.solValue := by
  unfold LstState.flagAt; split <;> rfl
theorem flagAt_ne {i : Nat} (h : j ≠ i) (s : LstState) : s.flagAt j b i = s := if_neg h
theorem flagAt_reserves (cfg : Cfg) (i : Nat) (s : LstState) (tp : Pubkey) : poolReserves cfg (s.flagAt j b i) tp = poolReserves cfg s tp := by
  unfold LstState.flagAt; split <;> rfl
theorem flagAt_fees (cfg : Cfg) (i : Nat) (s : LstState) (tp : Pubkey) : feeAccumulator cfg (s.flagAt j b i) tp = feeAccumulator cfg s tp := by
  unfold LstState.flagAt; split <;> rfl

theorem matchLst_flag (m : Pubkey) (w : World) (i : Nat) :
    matchLst m (w.setFlag j b).ctl.lsts i = (matchLst m w.ctl.lsts i).map (LstState.flagAt j b i) := by
  unfold matchLst
  rw [lsts_flag]
  cases w.ctl.lsts[i]? with
  | none => rfl
  | some s =>
    show (require (m = (s.flagAt j b i).mint) _ >>= _) = Except.map _ (require (m = s.mint) _ >>= _)
    simp only [flagAt_mint, R_bind_map, R_pure_map]

theorem calcCpi_flag (w : World) (m : Pubkey) (suf : List Acc) (i : Nat) :
    verifyCalcCpi (w.setFlag j b).ctl.lsts m suf i = verifyCalcCpi w.ctl.lsts m suf i := by
  unfold verifyCalcCpi
  rw [lsts_flag]
  cases w.ctl.lsts[i]? with
  | none => rfl
  | some s =>
    cases CalcCpi.ofSuffix m suf with
    | error e => rfl
    | ok c =>
      show (require (c.program = (s.flagAt j b i).solValueCalculator) _ >>= _) = (require (c.program = s.solValueCalculator) _ >>= _)
      rw [flagAt_prog]

theorem sync_flag (c : World) (i v : Nat) :
    (c.setFlag j b).ctl.sync i v = (c.ctl.sync i v).map fun k => (World.setFlag j b ⟨k, c.led⟩).ctl := by
  unfold Ctl.sync
  rw [lsts_flag]
  show (okOr c.ctl.pool _ >>= _) = _
  cases c.ctl.pool with
  | none => rfl
  | some p =>
    cases hs : c.ctl.lsts[i]? with
    | none => rfl
    | some s =>
      show (syncedTotal p.totalSolValue (s.flagAt j b i).solValue v >>= _) = Except.map _ (syncedTotal p.totalSolValue s.solValue v >>= _)
      simp only [flagAt_val, R_bind_map, R_pure_map]
      congr 1
      funext t
      simp only [World.setFlag, pure, Except.pure, Except.ok.injEq, Ctl.mk.injEq, true_and, and_true]
      apply List.ext_getElem?
      intro k
      rw [get_flag, List.getElem?_set, List.getElem?_set, get_flag]
      by_cases e : i = k
      · subst e
        simp only [if_pos, List.length_modify]
        split
        · unfold LstState.flagAt; split <;> rfl
        · rfl
      · simp only [if_neg e]

theorem ask_flag {cfg : Cfg} {calcF : Pubkey → List Acc → CalcReq → R Range} {priceF : Pubkey → List Acc → PriceReq → R Nat} (n : Nat)
    (w : World) (c : CalcCpi) (q : CalcReq) :
    c.ask (Env.pure cfg calcF priceF) n (w.setFlag j b) q =
      (c.ask (Env.pure cfg calcF priceF) n w q).map fun x => (x.1, x.2.setFlag j b) := by
  unfold CalcCpi.ask
  simp only [Env.pure]
  cases calcF c.program c.metas q with
  | error e => rfl
  | ok r =>
    show (require _ _ >>= _) = Except.map _ (require _ _ >>= _)
    simp only [R_bind_map, R_pure_map]

theorem price_flag {cfg : Cfg} {calcF : Pubkey → List Acc → CalcReq → R Range} {priceF : Pubkey → List Acc → PriceReq → R Nat} (n : Nat)
    (w : World) (c : PriceCpi) (q : PriceReq) :
    c.ask (Env.pure cfg calcF priceF) n (w.setFlag j b) q =
      (c.ask (Env.pure cfg calcF priceF) n w q).map fun x => (x.1, x.2.setFlag j b) := by
  unfold PriceCpi.ask
  simp only [Env.pure]
  cases priceF c.program c.metas q with
  | error e => rfl
  | ok r =>
    show (require _ _ >>= _) = Except.map _ (require _ _ >>= _)
    simp only [R_bind_map, R_pure_map]

theorem syncUnchecked_flag {cfg : Cfg} {calcF : Pubkey → List Acc → CalcReq → R Range} {priceF : Pubkey → List Acc → PriceReq → R Nat}
    (n : Nat) (w : World) (k : Pubkey) (c : CalcCpi) (i : Nat) :
    syncUnchecked (Env.pure cfg calcF priceF) n (w.setFlag j b) k c i =
      (syncUnchecked (Env.pure cfg calcF priceF) n w k c i).map (World.setFlag j b) := by
  unfold syncUnchecked
  simp only [led_flag, ask_flag, R_bind_map, R_map_bind, sync_flag, R_pure_map]
  rfl

theorem verifyLiq_flag (cfg : Cfg) (w : World) (a : LiqAccs) (suf : List Acc) (n i : Nat) :
    verifyLiq cfg (w.setFlag j b) a suf n i false = verifyLiq cfg w a suf n i false := by
  unfold verifyLiq verifyLpCpis
  simp only [matchLst_flag, R_map_bind, led_flag, getPool_flag, calcCpi_flag, flagAt_reserves, flagAt_fees]
  simp

theorem verifySwap_flag (cfg : Cfg) (w : World) (a : SwapAccs) (suf : List Acc) (n m i k : Nat) (h : j ≠ i) :
    verifySwap cfg (w.setFlag j b) a suf n m i k = verifySwap cfg w a suf n m i k := by
  unfold verifySwap verifySwapCpis verifySrcDstCpis
  simp only [matchLst_flag, R_map_bind, led_flag, getPool_flag, calcCpi_flag, flagAt_reserves, flagAt_fees, flagAt_ne j b h]

theorem verifyStart_flag (cfg : Cfg) (tx : TxInfo) (w : World) (a : StartRebAccs) (suf : List Acc) (args : StartRebalanceArgs)
    (h : j ≠ args.dstLstIndex) :
    verifyStartRebalance cfg tx (w.setFlag j b) a suf args = verifyStartRebalance cfg tx w a suf args := by
  unfold verifyStartRebalance verifySrcDstCpis
  simp only [matchLst_flag, R_map_bind, led_flag, getPool_flag, calcCpi_flag, flagAt_reserves, flagAt_mint, flagAt_ne j b h]

variable {cfg : Cfg} {calcF : Pubkey → List Acc → CalcReq → R Range} {priceF : Pubkey → List Acc → PriceReq → R Nat} {L : RatioLib}

theorem finishSwap_flag (w : World) (a : SwapAccs) (c : SwapCpis) (i k t x y f : Nat) :
    finishSwap (Env.pure cfg calcF priceF) (w.setFlag j b) a c i k t x y f =
      (finishSwap (Env.pure cfg calcF priceF) w a c i k t x y f).map (World.setFlag j b) := by
  unfold finishSwap
  simp only [led_flag, setLed_flag, syncUnchecked_flag, R_bind_map, R_map_bind, total_flag, R_pure_map]

/-- C34: redemptions are unaffected by any LST's input flag, including the redeemed one's: they fail with the same error or
give the same result, up to the flag itself. -/
theorem C34_redeem_unaffected (tx : TxInfo) (w : World) (accs : List Acc) (args : RemoveLiquidityArgs) :
    processIx cfg L (Env.pure cfg calcF priceF) tx (w.setFlag j b) accs (.removeLiquidity args) =
      (processIx cfg L (Env.pure cfg calcF priceF) tx w accs (.removeLiquidity args)).map (World.setFlag j b) := by
  show processRemoveLiquidity cfg L _ _ accs args = Except.map _ (processRemoveLiquidity cfg L _ w accs args)
  unfold processRemoveLiquidity
  simp only [led_flag, setLed_flag, syncUnchecked_flag, R_bind_map, R_map_bind, verifyLiq_flag, getPool_flag, ask_flag, price_flag]

/-- C34: swaps out to the LST (entry `j`) are unaffected by its flag. -/
theorem C34_swap_out_unaffected (tx : TxInfo) (w : World) (accs : List Acc) (ix : Ix)
    (hix : (∃ a, ix = .swapExactIn a ∧ a.srcLstIndex ≠ j) ∨ (∃ a, ix = .swapExactOut a ∧ a.srcLstIndex ≠ j)) :
    processIx cfg L (Env.pure cfg calcF priceF) tx (w.setFlag j b) accs ix =
      (processIx cfg L (Env.pure cfg calcF priceF) tx w accs ix).map (World.setFlag j b) := by
  rcases hix with ⟨a, rfl, h⟩ | ⟨a, rfl, h⟩
  · show processSwapExactIn cfg L _ _ accs a = Except.map _ (processSwapExactIn cfg L _ w accs a)
    unfold processSwapExactIn
    simp only [syncUnchecked_flag, R_bind_map, R_map_bind, verifySwap_flag j b _ _ _ _ _ _ _ _ (Ne.symm h), getPool_flag, ask_flag,
      price_flag, finishSwap_flag, total_flag]
  · show processSwapExactOut cfg L _ _ accs a = Except.map _ (processSwapExactOut cfg L _ w accs a)
    unfold processSwapExactOut
    simp only [syncUnchecked_flag, R_bind_map, R_map_bind, verifySwap_flag j b _ _ _ _ _ _ _ _ (Ne.symm h), getPool_flag, ask_flag,
      price_flag, finishSwap_flag, total_flag]

/-- C34: starting a rebalance out of the LST (entry `j`) is unaffected by its flag, and so is syncing. -/
theorem C34_rebalance_out_unaffected (tx : TxInfo) (w : World) (accs : List Acc) (args : StartRebalanceArgs) (h : args.dstLstIndex ≠ j) :
    processIx cfg L (Env.pure cfg calcF priceF) tx (w.setFlag j b) accs (.startRebalance args) =
      (processIx cfg L (Env.pure cfg calcF priceF) tx w accs (.startRebalance args)).map (World.setFlag j b) := by
  show processStartRebalance cfg _ tx _ accs args = Except.map _ (processStartRebalance cfg _ tx w accs args)
  unfold processStartRebalance
  simp only [led_flag, setLed_flag, syncUnchecked_flag, R_bind_map, R_map_bind, verifyStart_flag j b _ _ _ _ _ _ (Ne.symm h), getPool_flag,
    total_flag, R_pure_map, rebal_flag]
  rfl

theorem C34_sync_unaffected (tx : TxInfo) (w : World) (accs : List Acc) (i : Nat) :
    processIx cfg L (Env.pure cfg calcF priceF) tx (w.setFlag j b) accs (.syncSolValue i) =
      (processIx cfg L (Env.pure cfg calcF priceF) tx w accs (.syncSolValue i)).map (World.setFlag j b) := by
  show processSync cfg _ _ accs i = Except.map _ (processSync cfg _ w accs i)
  unfold processSync verifySync
  simp only [led_flag, syncUnchecked_flag, R_bind_map, R_map_bind, R_assoc, matchLst_flag, getPool_flag, calcCpi_flag, flagAt_reserves, flagAt_mint]
end

/-! Concretely: with LST 21's input disabled, a redemption into it, a swap out to it and a rebalance out of it (which needs its
end in the same transaction) succeed, while a deposit of it and a swap from it fail. -/
def Ex.flagged : World := (Ex.st 7).setFlag 0 1
def Ex.outcome (w : World) (accs : List Acc) (ix : Ix) : Option Err :=
  match processIx Ex.cfg .ex Ex.env ⟨[], 0⟩ w accs ix with
  | .ok _ => none
  | .error e => some e
def Ex.swapToA : List Acc := [Ex.sg 40, Ex.ro 22, Ex.ro 21, Ex.rw 42, Ex.rw 41, Ex.rw Ex.feeA, Ex.ro 8, Ex.ro 8, Ex.rw 1, Ex.rw 2,
  Ex.rw Ex.resB, Ex.rw Ex.resA, Ex.ro 32, Ex.ro 31, Ex.ro 7]

example : [Ex.outcome Ex.flagged Ex.liqA (.removeLiquidity ⟨1, 0, 10000, 1⟩), Ex.outcome Ex.flagged Ex.swapToA (.swapExactIn ⟨1, 1, 1, 0, 10, 1980⟩),
    Ex.outcome Ex.flagged Ex.liqA (.addLiquidity ⟨1, 0, 3000, 1⟩), Ex.outcome Ex.flagged Ex.swapAB (.swapExactIn ⟨1, 1, 0, 1, 10, 3000⟩)] =
    [none, none, some .lstInputDisabled, some .lstInputDisabled] := by decide +kernel

end S
