import Verif.Proofs.Ledger
import Verif.Props.Data
import Verif.Props.CalcPrograms
import Verif.Props.FlatFee
/-
The controller only asks for amounts that fit into 64 bits: two environments that agree on such requests cannot be told apart.
-/
set_option autoImplicit false
namespace S

theorem bind_congr_ok {α β : Type} {x : R α} {f g : α → R β} (h : ∀ a, x = .ok a → f a = g a) : (x >>= f) = (x >>= g) := by
  cases x with
  | error e => rfl
  | ok a => exact h a rfl

/-- Two environments that answer every request in range of its types alike. -/
structure Env.Agree {cfg : Cfg} (e e' : Env cfg) : Prop where
  calcs : ∀ n w p ms q, q.amount < U64 → e.askCalc n w p ms q = e'.askCalc n w p ms q
  prices : ∀ n w p ms q, q.Wf → e.askPrice n w p ms q = e'.askPrice n w p ms q

variable {cfg : Cfg} {e e' : Env cfg} {L : RatioLib} {w : World} {accs : List Acc}

theorem CalcCpi.ask_agree (h : e.Agree e') {c : CalcCpi} {n : Nat} {q : CalcReq} (hq : q.amount < U64) : c.ask e n w q = c.ask e' n w q := by
  simp only [CalcCpi.ask, h.calcs n w _ _ q hq]

theorem PriceCpi.ask_agree (h : e.Agree e') {c : PriceCpi} {n : Nat} {q : PriceReq} (hq : q.Wf) : c.ask e n w q = c.ask e' n w q := by
  simp only [PriceCpi.ask, h.prices n w _ _ q hq]

theorem CalcCpi.ask_wf {c : CalcCpi} {n : Nat} {q : CalcReq} {r : Range} {w' : World} (h : c.ask e n w q = .ok (r, w')) (hw : w.led.Wf cfg) :
    w'.led.Wf cfg ∧ r.min < U64 ∧ r.max < U64 := by
  simp only [CalcCpi.ask, bind_ok, Prod.exists, require_ok, exists_const, pure_ok, Prod.mk.injEq] at h
  obtain ⟨r, l, h, hr, rfl, rfl⟩ := h
  exact ⟨(e.calc_ext h).wf hw, hr⟩

theorem PriceCpi.ask_wf {c : PriceCpi} {n : Nat} {q : PriceReq} {r : Nat} {w' : World} (h : c.ask e n w q = .ok (r, w')) (hw : w.led.Wf cfg) :
    w'.led.Wf cfg ∧ r < U64 := by
  simp only [PriceCpi.ask, bind_ok, Prod.exists, require_ok, exists_const, pure_ok, Prod.mk.injEq] at h
  obtain ⟨r, l, h, hr, rfl, rfl⟩ := h
  exact ⟨(e.price_ext h).wf hw, hr⟩

theorem tokenBalance_u64 {l : Ledger} {k : Pubkey} {n : Nat} (h : tokenBalance l k = .ok n) (hw : l.Wf cfg) : n < U64 := by
  simp only [tokenBalance, bind_ok, okOr_ok, pure_ok] at h
  obtain ⟨a, ha, rfl⟩ := h
  exact hw.tok_u64 k a ha

theorem sync_agree (h : e.Agree e') (hw : w.led.Wf cfg) {n i : Nat} {k : Pubkey} {c : CalcCpi} :
    syncUnchecked e n w k c i = syncUnchecked e' n w k c i := by
  unfold syncUnchecked
  refine bind_congr_ok fun b hb => ?_
  rw [CalcCpi.ask_agree h (tokenBalance_u64 hb hw)]

theorem sync_agree_mk (h : e.Agree e') {ctl : Ctl} {l : Ledger} (hl : l.Wf cfg) {n i : Nat} {k : Pubkey} {c : CalcCpi} :
    syncUnchecked e n ⟨ctl, l⟩ k c i = syncUnchecked e' n ⟨ctl, l⟩ k c i := sync_agree h hl

theorem sync_wf {n i : Nat} {k : Pubkey} {c : CalcCpi} {w' : World} (h : syncUnchecked e n w k c i = .ok w') (hw : w.led.Wf cfg) : w'.led.Wf cfg := by
  simp only [syncUnchecked, bind_ok, Prod.exists, pure_ok] at h
  obtain ⟨b, -, r, w1, h, ctl, -, rfl⟩ := h
  exact (CalcCpi.ask_wf h hw).1

theorem transfer_wf {l l' : Ledger} {t : TransferAccs} {n : Nat} (h : transfer l t n = .ok l') (hw : l.Wf cfg) : l'.Wf cfg :=
  LedOp.Run.wf (op := .transfer t n) h hw
theorem mintTo_wf {l l' : Ledger} {m d tp a : Pubkey} {n : Nat} (h : mintTo l m d tp a n = .ok l') (hw : l.Wf cfg) : l'.Wf cfg :=
  LedOp.Run.wf (op := .mintTo m d tp a n) h hw
theorem burn_wf {l l' : Ledger} {m d tp a : Pubkey} {n : Nat} (h : burn l m d tp a n = .ok l') (hw : l.Wf cfg) : l'.Wf cfg :=
  LedOp.Run.wf (op := .burn m d tp a n) h hw

theorem processSync_agree (h : e.Agree e') (hw : w.led.Wf cfg) {i : Nat} : processSync cfg e w accs i = processSync cfg e' w accs i := by
  unfold processSync
  refine bind_congr_ok fun ⟨a, suffix⟩ _ => ?_
  exact bind_congr_ok fun c _ => sync_agree h hw

theorem finishSwap_agree (h : e.Agree e') (hw : w.led.Wf cfg) {a : SwapAccs} {c : SwapCpis} {i j t x y z : Nat} :
    finishSwap e w a c i j t x y z = finishSwap e' w a c i j t x y z := by
  unfold finishSwap
  refine bind_congr_ok fun _ _ => bind_congr_ok fun _ _ => bind_congr_ok fun _ _ => bind_congr_ok fun l1 h1 => bind_congr_ok fun l2 h2 =>
    bind_congr_ok fun l3 h3 => ?_
  have hw3 := transfer_wf h3 (transfer_wf h2 (transfer_wf h1 hw))
  rw [sync_agree h hw3]
  refine bind_congr_ok fun w1 h4 => ?_
  rw [sync_agree h (sync_wf h4 hw3)]

theorem processSwapExactIn_agree (h : e.Agree e') (hw : w.led.Wf cfg) {args : SwapExactInArgs} (ha : args.amount < U64) :
    processSwapExactIn cfg L e w accs args = processSwapExactIn cfg L e' w accs args := by
  unfold processSwapExactIn
  refine bind_congr_ok fun _ _ => bind_congr_ok fun ⟨a, suffix⟩ _ => bind_congr_ok fun c _ => ?_
  rw [sync_agree h hw]
  refine bind_congr_ok fun w1 h1 => ?_
  have hw1 := sync_wf h1 hw
  rw [sync_agree h hw1]
  refine bind_congr_ok fun w2 h2 => ?_
  have hw2 := sync_wf h2 hw1
  refine bind_congr_ok fun t _ => ?_
  rw [CalcCpi.ask_agree h (q := .lstToSol args.amount) ha]
  refine bind_congr_ok fun ⟨r3, w3⟩ h3 => ?_
  obtain ⟨hw3, hr3⟩ := CalcCpi.ask_wf h3 hw2
  dsimp only
  refine bind_congr_ok fun _ _ => ?_
  rw [PriceCpi.ask_agree h (q := .exactIn args.amount r3.min) ⟨ha, hr3.1⟩]
  refine bind_congr_ok fun ⟨r4, w4⟩ h4 => ?_
  obtain ⟨hw4, hr4⟩ := PriceCpi.ask_wf h4 hw3
  dsimp only
  rw [CalcCpi.ask_agree h (q := .solToLst r4) hr4]
  refine bind_congr_ok fun ⟨r5, w5⟩ h5 => ?_
  obtain ⟨hw5, hr5⟩ := CalcCpi.ask_wf h5 hw4
  exact bind_congr_ok fun _ _ => bind_congr_ok fun _ _ => bind_congr_ok fun _ _ => bind_congr_ok fun _ _ => finishSwap_agree h hw5

theorem processSwapExactOut_agree (h : e.Agree e') (hw : w.led.Wf cfg) {args : SwapExactOutArgs} (ha : args.amount < U64) :
    processSwapExactOut cfg L e w accs args = processSwapExactOut cfg L e' w accs args := by
  unfold processSwapExactOut
  refine bind_congr_ok fun _ _ => bind_congr_ok fun ⟨a, suffix⟩ _ => bind_congr_ok fun c _ => ?_
  rw [sync_agree h hw]
  refine bind_congr_ok fun w1 h1 => ?_
  have hw1 := sync_wf h1 hw
  rw [sync_agree h hw1]
  refine bind_congr_ok fun w2 h2 => ?_
  have hw2 := sync_wf h2 hw1
  refine bind_congr_ok fun t _ => ?_
  rw [CalcCpi.ask_agree h (q := .lstToSol args.amount) ha]
  refine bind_congr_ok fun ⟨r3, w3⟩ h3 => ?_
  obtain ⟨hw3, hr3⟩ := CalcCpi.ask_wf h3 hw2
  dsimp only
  refine bind_congr_ok fun _ _ => ?_
  rw [PriceCpi.ask_agree h (q := .exactOut args.amount r3.max) ⟨ha, hr3.2⟩]
  refine bind_congr_ok fun ⟨r4, w4⟩ h4 => ?_
  obtain ⟨hw4, hr4⟩ := PriceCpi.ask_wf h4 hw3
  dsimp only
  rw [CalcCpi.ask_agree h (q := .solToLst r4) hr4]
  refine bind_congr_ok fun ⟨r5, w5⟩ h5 => ?_
  obtain ⟨hw5, hr5⟩ := CalcCpi.ask_wf h5 hw4
  exact bind_congr_ok fun _ _ => bind_congr_ok fun _ _ => bind_congr_ok fun _ _ => bind_congr_ok fun _ _ => finishSwap_agree h hw5

theorem processAddLiquidity_agree (h : e.Agree e') (hw : w.led.Wf cfg) {args : AddLiquidityArgs} (ha : args.lstAmount < U64) :
    processAddLiquidity cfg L e w accs args = processAddLiquidity cfg L e' w accs args := by
  unfold processAddLiquidity
  refine bind_congr_ok fun _ _ => bind_congr_ok fun ⟨a, suffix⟩ _ => bind_congr_ok fun c _ => ?_
  rw [sync_agree h hw]
  refine bind_congr_ok fun w1 h1 => ?_
  have hw1 := sync_wf h1 hw
  refine bind_congr_ok fun t _ => ?_
  rw [CalcCpi.ask_agree h (q := .lstToSol args.lstAmount) ha]
  refine bind_congr_ok fun ⟨r3, w3⟩ h3 => ?_
  obtain ⟨hw3, hr3⟩ := CalcCpi.ask_wf h3 hw1
  dsimp only
  rw [PriceCpi.ask_agree h (q := .lpTokensToMint args.lstAmount r3.min) ⟨ha, hr3.1⟩]
  refine bind_congr_ok fun ⟨r4, w4⟩ h4 => ?_
  obtain ⟨hw4, hr4⟩ := PriceCpi.ask_wf h4 hw3
  dsimp only
  refine bind_congr_ok fun _ _ => bind_congr_ok fun _ _ => bind_congr_ok fun _ _ => bind_congr_ok fun _ _ => bind_congr_ok fun _ _ =>
    bind_congr_ok fun _ _ => bind_congr_ok fun _ _ => bind_congr_ok fun l1 t1 => bind_congr_ok fun l2 t2 => bind_congr_ok fun l3 t3 => ?_
  rw [sync_agree h (mintTo_wf t3 (transfer_wf t2 (transfer_wf t1 hw4)))]

theorem calcLpTokensSolValue_u64 {x : LpTokenRateArgs} {n v : Nat} (h : calcLpTokensSolValue L x n = .ok v) : v < U64 := by
  unfold calcLpTokensSolValue at h
  split at h
  · rw [pure_ok] at h; subst h; decide
  · unfold floorApply at h
    split at h
    · exact L.applyDenom0_u64 _ _ _ h
    · rw [toU64_ok] at h; omega

theorem processRemoveLiquidity_agree (h : e.Agree e') (hw : w.led.Wf cfg) {args : RemoveLiquidityArgs} (ha : args.lpTokenAmount < U64) :
    processRemoveLiquidity cfg L e w accs args = processRemoveLiquidity cfg L e' w accs args := by
  unfold processRemoveLiquidity
  refine bind_congr_ok fun _ _ => bind_congr_ok fun ⟨a, suffix⟩ _ => bind_congr_ok fun c _ => ?_
  rw [sync_agree h hw]
  refine bind_congr_ok fun w1 h1 => ?_
  have hw1 := sync_wf h1 hw
  refine bind_congr_ok fun p _ => bind_congr_ok fun s _ => bind_congr_ok fun v hv => ?_
  rw [PriceCpi.ask_agree h (q := .lpTokensToRedeem args.lpTokenAmount v) ⟨ha, calcLpTokensSolValue_u64 hv⟩]
  refine bind_congr_ok fun ⟨r4, w4⟩ h4 => ?_
  obtain ⟨hw4, hr4⟩ := PriceCpi.ask_wf h4 hw1
  dsimp only
  refine bind_congr_ok fun _ _ => ?_
  rw [CalcCpi.ask_agree h (q := .solToLst r4) hr4]
  refine bind_congr_ok fun ⟨r5, w5⟩ h5 => ?_
  obtain ⟨hw5, hr5⟩ := CalcCpi.ask_wf h5 hw4
  dsimp only
  refine bind_congr_ok fun _ _ => bind_congr_ok fun _ _ => bind_congr_ok fun _ _ => bind_congr_ok fun l1 t1 => bind_congr_ok fun l2 t2 =>
    bind_congr_ok fun l3 t3 => ?_
  exact sync_agree h (transfer_wf t3 (transfer_wf t2 (burn_wf t1 hw5)))

theorem processStartRebalance_agree (h : e.Agree e') (hw : w.led.Wf cfg) {tx : TxInfo} {args : StartRebalanceArgs} :
    processStartRebalance cfg e tx w accs args = processStartRebalance cfg e' tx w accs args := by
  unfold processStartRebalance
  refine bind_congr_ok fun ⟨a, suffix⟩ _ => bind_congr_ok fun c _ => ?_
  rw [sync_agree h hw]
  refine bind_congr_ok fun w1 h1 => ?_
  have hw1 := sync_wf h1 hw
  rw [sync_agree h hw1]
  refine bind_congr_ok fun w2 h2 => ?_
  have hw2 := sync_wf h2 hw1
  refine bind_congr_ok fun t _ => bind_congr_ok fun l t1 => ?_
  rw [sync_agree h (transfer_wf t1 hw2)]

theorem processEndRebalance_agree (h : e.Agree e') (hw : w.led.Wf cfg) : processEndRebalance cfg e w accs = processEndRebalance cfg e' w accs := by
  unfold processEndRebalance
  refine bind_congr_ok fun ⟨a, suffix⟩ _ => bind_congr_ok fun _ _ => bind_congr_ok fun _ _ => bind_congr_ok fun _ _ => bind_congr_ok fun _ _ =>
    bind_congr_ok fun _ _ => bind_congr_ok fun _ _ => bind_congr_ok fun _ _ => bind_congr_ok fun _ _ => bind_congr_ok fun _ _ =>
    bind_congr_ok fun _ _ => bind_congr_ok fun _ _ => bind_congr_ok fun _ _ => bind_congr_ok fun _ _ => ?_
  dsimp only
  rw [sync_agree_mk h hw]

theorem processSetCalc_agree (h : e.Agree e') (hw : w.led.Wf cfg) {i : Nat} :
    processSetSolValueCalculator cfg e w accs i = processSetSolValueCalculator cfg e' w accs i := by
  unfold processSetSolValueCalculator
  refine bind_congr_ok fun ⟨a, suffix⟩ _ => bind_congr_ok fun _ _ => bind_congr_ok fun _ _ => bind_congr_ok fun _ _ => bind_congr_ok fun _ _ =>
    bind_congr_ok fun _ _ => bind_congr_ok fun _ _ => bind_congr_ok fun _ _ => bind_congr_ok fun _ _ => bind_congr_ok fun _ _ =>
    bind_congr_ok fun _ _ => bind_congr_ok fun _ _ => bind_congr_ok fun _ _ => ?_
  exact sync_agree_mk h hw

/-- An instruction executes alike in environments that agree on the requests that fit into 64 bits. -/
theorem processIx_agree (h : e.Agree e') (hw : w.led.Wf cfg) {tx : TxInfo} {ix : Ix} (hix : ix.Wf) :
    processIx cfg L e tx w accs ix = processIx cfg L e' tx w accs ix := by
  cases ix with
  | syncSolValue i => exact processSync_agree h hw
  | swapExactIn a => exact processSwapExactIn_agree h hw hix.2.2.2.2.2
  | swapExactOut a => exact processSwapExactOut_agree h hw hix.2.2.2.2.2
  | addLiquidity a => exact processAddLiquidity_agree h hw hix.2.2.1
  | removeLiquidity a => exact processRemoveLiquidity_agree h hw hix.2.2.1
  | setSolValueCalculator i => exact processSetCalc_agree h hw
  | startRebalance a => exact processStartRebalance_agree h hw
  | endRebalance => exact processEndRebalance_agree h hw
  | _ => rfl

theorem processInstruction_agree (h : e.Agree e') (hw : w.led.Wf cfg) {tx : TxInfo} {pid : Pubkey} {data : List UInt8} :
    processInstruction cfg L e tx w pid accs data = processInstruction cfg L e' tx w pid accs data := by
  unfold processInstruction
  exact bind_congr_ok fun _ _ => bind_congr_ok fun ix hix => processIx_agree h hw (decodeIx_iff.1 hix).1

end S
