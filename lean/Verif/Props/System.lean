import Verif.Proofs.System
import Verif.Props.NoProfit
import Verif.JupExample
/-
The programs of the repository deployed together (C65–C68): histories of transactions that mix instructions of the controller, the pricing programs, the calculators and
foreign programs, in which the controller's questions are answered by those programs.
-/
set_option autoImplicit false
namespace S
variable {sc : SysCfg} {L : RatioLib}

/-! ### Specification -/

/-- The calculator program is one of the repository's. -/
def SysCfg.Serves (sc : SysCfg) (prog : Pubkey) : Prop := prog = sc.wsolCalc ∨ ∃ pc ∈ sc.pools, prog = pc.programId

/-- Calculator program `prog` prices `mint` by the figures `c`, which are those of a usable stake pool of that mint on the chain (or 1:1, for wrapped SOL). -/
def SysCfg.PricedBy (sc : SysCfg) (ch : OnChain) (prog mint : Pubkey) (c : AnyCalc) : Prop :=
  (prog = sc.wsolCalc ∧ mint = sc.wsolMint ∧ c = .wsol) ∨ ∃ pc ∈ sc.pools, prog = pc.programId ∧ ∃ k, UsablePool pc ch k mint c

/-- Instructions of the flat-fee program among the events. -/
def flatCallsOf (es : List (SysEvent sc)) : List (FlatCall sc.fc) :=
  es.filterMap fun e => match e.act with
    | .flat c => some c
    | _ => none

/-- Instructions of calculator program `p` among the events. -/
def calcCallsOf (p : Pubkey) (es : List (SysEvent sc)) : List CalcCall :=
  es.filterMap fun e => match e.act with
    | .calc pc _ c => if pc.programId = p then some c else none
    | _ => none

/-- Some event is the acknowledgement, signed by the calculator's manager of that moment, that the stake pool program's last upgrade was in slot `slot`, as it was at
that moment. -/
def AcknowledgedIn (L : RatioLib) (pc : PoolCfg) (slot : Nat) (es : List (SysEvent sc)) : Prop :=
  ∃ e ∈ es, ∃ pc' mem c st, e.act = .calc pc' mem c ∧ pc'.programId = pc.programId ∧ e.pre.calc L pc = some st ∧ SignedBy c.accs st.manager ∧
    (∃ rest, c.data = CalcIx.updateLastUpgradeSlot.encode ++ rest) ∧ UpgradedAt c.chain pc.poolProgram slot

/-! ### C65: each program's guarantees hold in the system -/

theorem SysChain.calls {s s' : Sys sc} {es : List (SysEvent sc)} (hc : SysChain s es s') (hr : ∀ e ∈ es, e.act.run L e.tx e.pre = .ok e.post) :
    s'.flatCalls = s.flatCalls ++ flatCallsOf es ∧ ∀ p, s'.calcCalls p = s.calcCalls p ++ calcCallsOf p es := by
  induction hc with
  | nil => simp [flatCallsOf, calcCallsOf]
  | @cons s' e es _ ih =>
    rw [List.forall_mem_cons] at hr
    obtain ⟨i1, i2⟩ := ih hr.2
    have h := hr.1
    rw [i1]; simp only [i2]
    unfold flatCallsOf calcCallsOf
    simp only [List.filterMap_cons]
    cases ha : e.act with
    | ext f ok => rw [ha] at h; simp only [SysAction.run, Except.ok.injEq] at h; rw [← h]; exact ⟨rfl, fun _ => rfl⟩
    | controller o accs data =>
      rw [ha] at h; simp only [SysAction.run, bind_ok, pure_ok] at h
      obtain ⟨w, _, h⟩ := h; rw [← h]; exact ⟨rfl, fun _ => rfl⟩
    | flat c =>
      rw [ha] at h; simp only [SysAction.run, bind_ok, pure_ok] at h
      obtain ⟨w, _, h⟩ := h; rw [← h]; exact ⟨by simp, fun _ => rfl⟩
    | «calc» pc mem c =>
      rw [ha] at h; simp only [SysAction.run, bind_ok, pure_ok] at h
      obtain ⟨w, _, h⟩ := h; rw [← h]
      refine ⟨rfl, fun p => ?_⟩
      by_cases hp : pc.programId = p
      · subst hp; simp
      · simp only [hp, if_false]; rw [upd_ne _ _ (fun e => hp e.symm)]

/-- C65: any history of transactions mixing all programs is, for the controller, a history of its own with the same states and events (so C01–C64 hold of it); the flat-fee
program's and the calculators' accounts are those their own instructions, in order, leave behind (so C26 and C27 hold of them); nothing else changes them. -/
theorem C65_together {s₀ : Sys sc} (hf : s₀.Fresh) (h : List (SysTx sc)) :
    (∃ h' : List (Tx sc.cfg), (runSystem L s₀ h).world = runHistory L s₀.world h' ∧
      (systemEvents L s₀ h).map (SysEvent.ctl L) = historyEvents L s₀.world h') ∧
    (runSystem L s₀ h).flat L = flatHistory L (flatCallsOf (systemEvents L s₀ h)) ∧
    ∀ pc ∈ sc.pools, (runSystem L s₀ h).calc L pc = calcHistory L pc (calcCallsOf pc.programId (systemEvents L s₀ h)) := by
  obtain ⟨hc, hr⟩ := systemEvents_chain L s₀ h
  obtain ⟨h1, h2⟩ := hc.calls hr
  obtain ⟨g1, g2⟩ := ctlHistory_run (L := L) s₀ h
  refine ⟨⟨_, g1.symm, g2.symm⟩, ?_, fun pc _ => ?_⟩
  · unfold Sys.flat; rw [h1, hf.flat]; rfl
  · unfold Sys.calc; rw [h2, hf.calcs]; rfl

/-- C65: the state after any history of the system is one the controller can reach. -/
theorem C65_reachable {s₀ : Sys sc} (hf : s₀.Fresh) (h : List (SysTx sc)) : Reachable sc.cfg L (runSystem L s₀ h).world :=
  ⟨s₀.world, hf.world, ctlHistory L s₀ h, ((ctlHistory_run (L := L) s₀ h).1).symm⟩

/-- An instruction of the controller in the system is an execution of it with the system's programs around it. -/
theorem SysEvent.ix {s₀ : Sys sc} {h : List (SysTx sc)} {e : SysEvent sc} (he : e ∈ systemEvents L s₀ h) {o : Outside sc} {accs : List Acc} {ix : Ix}
    (hix : e.IsIx o accs ix) : processIx sc.cfg L (e.pre.env L o) e.tx e.pre.world accs ix = .ok e.post.world := by
  obtain ⟨data, ha, hd⟩ := hix
  have h := (systemEvents_chain L s₀ h).2 e he
  rw [ha] at h
  simp only [SysAction.run, bind_ok, pure_ok] at h
  obtain ⟨w, hw, h⟩ := h
  obtain ⟨_, ix', hd', hp⟩ := Call.run_ok hw
  rw [hd] at hd'; injection hd' with hd'; subst hd'
  rw [← h]; exact hp

theorem SysEvent.isIx_ctl {e : SysEvent sc} {o : Outside sc} {accs : List Acc} {ix : Ix} (h : e.IsIx o accs ix) : (e.ctl L).IsIx accs ix := by
  obtain ⟨data, ha, hd⟩ := h
  exact ⟨⟨e.pre.env L o, accs, data⟩, by simp only [SysEvent.ctl, ha, SysAction.ctl], rfl, hd⟩

/-! ### C66 -/

theorem SysChain.split {s s' : Sys sc} {es es' : List (SysEvent sc)} {e : SysEvent sc} (h : SysChain s (es ++ e :: es') s') : SysChain s es e.pre := by
  induction es generalizing s with
  | nil => cases h; exact .nil _
  | cons a es ih => cases h with | cons h => exact .cons (ih h)

theorem calcCallsOf_mem {p : Pubkey} {es : List (SysEvent sc)} {pre post : List CalcCall} {c : CalcCall} (h : calcCallsOf p es = pre ++ c :: post) :
    ∃ es₁ e es₂ pc mem, es = es₁ ++ e :: es₂ ∧ calcCallsOf p es₁ = pre ∧ e.act = .calc pc mem c ∧ pc.programId = p := by
  induction es generalizing pre with
  | nil => simp [calcCallsOf] at h
  | cons a es ih =>
    unfold calcCallsOf at h
    rw [List.filterMap_cons] at h
    split at h
    · rename_i hn
      obtain ⟨es₁, e, es₂, pc, mem, h1, h2, h3⟩ := ih h
      refine ⟨a :: es₁, e, es₂, pc, mem, by rw [h1]; rfl, ?_, h3⟩
      unfold calcCallsOf; rw [List.filterMap_cons, hn]; exact h2
    · rename_i c' hn
      cases pre with
      | nil =>
        injection h with h1 h2; subst h1
        cases ha : a.act with
        | «calc» pc mem c =>
          rw [ha] at hn
          simp only at hn
          split at hn
          · rename_i hp
            injection hn with hn; subst hn
            exact ⟨[], a, es, pc, mem, rfl, rfl, ha, hp⟩
          · cases hn
        | ext f ok => rw [ha] at hn; cases hn
        | controller o accs data => rw [ha] at hn; cases hn
        | flat c => rw [ha] at hn; cases hn
      | cons x pre =>
        injection h with h1 h2; subst h1
        obtain ⟨es₁, e, es₂, pc, mem, h1, h2, h3⟩ := ih h2
        refine ⟨a :: es₁, e, es₂, pc, mem, by rw [h1]; rfl, ?_, h3⟩
        unfold calcCallsOf; rw [List.filterMap_cons, hn]; exact congrArg _ h2

/-- C66: no instruction of the pool prices an LST from a stake pool that is not in order this epoch, or whose program was upgraded since its calculator's manager last looked: in
any history of the system, whenever an instruction that values a listed LST served by a stake pool calculator succeeds, the LST's stake pool is usable, and the last upgrade of
its program is one that the manager acknowledged by an earlier instruction (or was in slot 0). -/
theorem C66_reviewed {s₀ : Sys sc} (hf : s₀.Fresh) {h : List (SysTx sc)} {es es' : List (SysEvent sc)} {e : SysEvent sc}
    (hev : systemEvents L s₀ h = es ++ e :: es') {o : Outside sc} {accs : List Acc} {ix : Ix} (hix : e.IsIx o accs ix) {i : Nat} {s : LstState}
    (hv : Values e.pre.world i ix) (hs : e.pre.world.ctl.lsts[i]? = some s) {pc : PoolCfg} (hpc : pc ∈ sc.pools)
    (hcalc : s.solValueCalculator = pc.programId) (hl : LoaderOk pc o.chain) :
    (∃ k c, UsablePool pc o.chain k s.mint c) ∧
    ∃ slot, UpgradedAt o.chain pc.poolProgram slot ∧ (slot = 0 ∨ AcknowledgedIn L pc slot es) := by
  have he : e ∈ systemEvents L s₀ h := by rw [hev]; simp
  obtain ⟨hc, hr⟩ := systemEvents_chain L s₀ h
  rw [hev] at hc hr
  have hc1 := hc.split
  have hr1 : ∀ x ∈ es, x.act.run L x.tx x.pre = .ok x.post := fun x hx => hr x (by simp [hx])
  obtain ⟨h1, slot, hu, ha⟩ := C27_C28_pool (e.pre.served o hpc) hl hs hcalc hv (SysEvent.ix he hix)
  refine ⟨h1, slot, hu, ha.imp id ?_⟩
  rintro ⟨pre, c, post, st, hcs, hst, hsig, hdata, hup⟩
  rw [(hc1.calls hr1).2, hf.calcs, List.nil_append] at hcs
  obtain ⟨es₁, x, es₂, pc', mem, rfl, h2, h3, h4⟩ := calcCallsOf_mem hcs
  refine ⟨x, by simp, pc', mem, c, st, h3, h4, ?_, hsig, hdata, hup⟩
  have hx := (hc1.split.calls (fun y hy => hr1 y (by simp [hy]))).2 pc.programId
  unfold Sys.calc
  rw [hx, hf.calcs, List.nil_append, h2]; exact hst

/-! ### C67 -/

/-- The answers the system's calculators give. -/
theorem Sys.calcAnswer {s : Sys sc} {o : Outside sc} {n : Nat} {l : Ledger} {prog mint : Pubkey} {q : CalcReq} {r : Range}
    (hs : sc.Serves prog) (h : CalcAnswer (s.env L o) n l prog mint q r) : ∃ c, sc.PricedBy o.chain prog mint c ∧ c.reply L q = .ok r := by
  obtain ⟨w, ms, _, hm, ha⟩ := h
  rcases hs with rfl | ⟨pc, hpc, rfl⟩
  · obtain ⟨h1, h2⟩ := s.served_wsol o ha
    rw [hm] at h1; injection h1 with h1
    exact ⟨.wsol, .inl ⟨rfl, h1, rfl⟩, h2⟩
  · obtain ⟨st', ha⟩ := s.served o hpc ha
    obtain ⟨m, pool, pd, st, c, hc, hu, _, _, _, hr⟩ := calcProcess_req ha
    rw [hc.head] at hm; injection hm with hm; subst hm
    exact ⟨c, .inr ⟨pc, hpc, rfl, pool, hu⟩, hr⟩

theorem take_two {ms : List Acc} {x y : Pubkey} (h : (ms.take 2).map Acc.key = [x, y]) : ∃ a b, ms[0]? = some a ∧ ms[1]? = some b ∧ a.key = x ∧ b.key = y := by
  match ms with
  | [] => cases h
  | [_] => cases h
  | a :: b :: _ =>
    simp only [List.take_succ_cons, List.take_zero, List.map_cons, List.map_nil, List.cons.injEq, and_true] at h
    exact ⟨a, b, rfl, rfl, h.1, h.2⟩

section
variable {s₀ : Sys sc} {h : List (SysTx sc)} {e : SysEvent sc} {o : Outside sc} {accs : List Acc} {p : PoolState}

/-- C67: in the system, a SwapExactIn between LSTs served by the repository's calculators, priced by the flat-fee program, pays out
`solToLst_out(⌊lstToSol_in(amount).min · (10000 − fee) / 10000⌋).min`, where the conversions are those of the two LSTs' stake pools on the chain at that moment and `fee` is the
sum of the input fee of the one and the output fee of the other that the flat-fee program's manager has set. -/
theorem C67_swapExactIn (he : e ∈ systemEvents L s₀ h) {args : SwapExactInArgs} (hix : e.IsIx o accs (.swapExactIn args)) (hq : o.other.Quiet)
    (hp : e.pre.world.ctl.pool = some p) (hpp : p.pricingProgram = sc.fc.programId) {si so : LstState}
    (hsi : e.pre.world.ctl.lsts[args.srcLstIndex]? = some si) (hso : e.pre.world.ctl.lsts[args.dstLstIndex]? = some so)
    (hci : sc.Serves si.solValueCalculator) (hco : sc.Serves so.solValueCalculator) :
    ∃ (ci co : AnyCalc) (fi fo : FeeAccount) (vi out : Range) (n fee : Nat) (signer srcAcc dstAcc feeAcc srcRes dstRes : Acc),
      sc.PricedBy o.chain si.solValueCalculator si.mint ci ∧ sc.PricedBy o.chain so.solValueCalculator so.mint co ∧
      (e.pre.flat L).feesOf sc.fc si.mint = some fi ∧ (e.pre.flat L).feesOf sc.fc so.mint = some fo ∧
      (ci.calculator L).lstToSol args.amount = .ok vi ∧ (n : Int) = 10000 - (fi.inputFeeBps + fo.outputFeeBps) ∧
      (co.calculator L).solToLst (vi.min * n / 10000) = .ok out ∧
      args.minAmountOut ≤ out.min ∧
      SwapMoves sc.cfg e.pre.world e.post.world accs args.srcLstIndex args.dstLstIndex args.amount out.min fee p si so signer srcAcc dstAcc feeAcc srcRes dstRes := by
  obtain ⟨out, fee, p', src, dst, signer, srcAcc, dstAcc, feeAcc, srcRes, dstRes, inSol, outSol, rOut, hm, h1, h2, h3, rfl, hmin, _⟩ :=
    C04_swapExactIn (e.pre.quiet hq) (SysEvent.ix he hix)
  have := hm.pool; rw [hp] at this; injection this with this; subst this
  have := hm.srcEntry; rw [hsi] at this; injection this with this; subst this
  have := hm.dstEntry; rw [hso] at this; injection this with this; subst this
  obtain ⟨ci, hci, hr1⟩ := Sys.calcAnswer hci h1
  obtain ⟨co, hco, hr3⟩ := Sys.calcAnswer hco h3
  obtain ⟨w, ms, _, hms, ha⟩ := h2
  rw [hpp] at ha
  obtain ⟨v, F', ha⟩ := e.pre.flatPriced o ha
  obtain ⟨_, mi, mo, fi, fo, y, k1, k2, k3, k4, k5, k6⟩ := C26_price_exact_in ha
  obtain ⟨a, b, l1, l2, l3, l4⟩ := take_two hms
  rw [k1] at l1; injection l1 with l1; subst l1
  rw [k2] at l2; injection l2 with l2; subst l2
  rw [l3] at k3; rw [l4] at k4
  injection k5 with k5; subst k5
  obtain ⟨n, hn, rfl, _⟩ := flatPriceExactIn_ok.1 k6
  exact ⟨ci, co, fi, fo, inSol, rOut, n, fee, signer, srcAcc, dstAcc, feeAcc, srcRes, dstRes, hci, hco, k3, k4, hr1, (outSolValueRatio_ok.1 hn).1, hr3, hmin, hm⟩

/-- C67: a SwapExactOut pays in `solToLst_in(⌈10000 · (lstToSol_out(amount).max + 1) / (10000 − fee)⌉).max`. -/
theorem C67_swapExactOut (he : e ∈ systemEvents L s₀ h) {args : SwapExactOutArgs} (hix : e.IsIx o accs (.swapExactOut args)) (hq : o.other.Quiet)
    (hp : e.pre.world.ctl.pool = some p) (hpp : p.pricingProgram = sc.fc.programId) {si so : LstState}
    (hsi : e.pre.world.ctl.lsts[args.srcLstIndex]? = some si) (hso : e.pre.world.ctl.lsts[args.dstLstIndex]? = some so)
    (hci : sc.Serves si.solValueCalculator) (hco : sc.Serves so.solValueCalculator) :
    ∃ ci co fi fo vo inp n fee signer srcAcc dstAcc feeAcc srcRes dstRes,
      sc.PricedBy o.chain si.solValueCalculator si.mint ci ∧ sc.PricedBy o.chain so.solValueCalculator so.mint co ∧
      (e.pre.flat L).feesOf sc.fc si.mint = some fi ∧ (e.pre.flat L).feesOf sc.fc so.mint = some fo ∧
      (co.calculator L).lstToSol args.amount = .ok vo ∧ n = 10000 - (fi.inputFeeBps + fo.outputFeeBps) ∧
      (0 < n → (ci.calculator L).solToLst (cdiv (10000 * (vo.max + 1)) n.toNat) = .ok inp) ∧
      inp.max ≤ args.maxAmountIn ∧
      SwapMoves sc.cfg e.pre.world e.post.world accs args.srcLstIndex args.dstLstIndex inp.max args.amount fee p si so signer srcAcc dstAcc feeAcc srcRes dstRes := by
  obtain ⟨srcIn, fee, p', src, dst, signer, srcAcc, dstAcc, feeAcc, srcRes, dstRes, outSol, inSol, rIn, hm, h1, h2, h3, rfl, hmax, _⟩ :=
    C05_swapExactOut (e.pre.quiet hq) (SysEvent.ix he hix)
  have := hm.pool; rw [hp] at this; injection this with this; subst this
  have := hm.srcEntry; rw [hsi] at this; injection this with this; subst this
  have := hm.dstEntry; rw [hso] at this; injection this with this; subst this
  obtain ⟨co, hco, hr1⟩ := Sys.calcAnswer hco h1
  obtain ⟨ci, hci, hr3⟩ := Sys.calcAnswer hci h3
  obtain ⟨w, ms, _, hms, ha⟩ := h2
  rw [hpp] at ha
  obtain ⟨v, F', ha⟩ := e.pre.flatPriced o ha
  obtain ⟨_, mi, mo, fi, fo, y, k1, k2, k3, k4, k5, k6⟩ := C26_price_exact_out ha
  obtain ⟨a, b, l1, l2, l3, l4⟩ := take_two hms
  rw [k1] at l1; injection l1 with l1; subst l1
  rw [k2] at l2; injection l2 with l2; subst l2
  rw [l3] at k3; rw [l4] at k4
  injection k5 with k5; subst k5
  refine ⟨ci, co, fi, fo, outSol, rIn, _, fee, signer, srcAcc, dstAcc, feeAcc, srcRes, dstRes, hci, hco, k3, k4, hr1, rfl, fun hn => ?_, hmax, hm⟩
  obtain ⟨n, hn', _, rfl, _⟩ := flatPriceExactOut_ok (by omega) k6
  have := (outSolValueRatio_ok.1 hn').1
  rw [← this, Int.toNat_natCast]; exact hr3

/-- C67: a deposit is credited its full value by the flat-fee program: it mints `LpMinted supply total v` for the value `v` its stake pool gives the LSTs, and (if they are worth anything) all of them
go to the reserves: no fee is taken. -/
theorem C67_addLiquidity (he : e ∈ systemEvents L s₀ h) {args : AddLiquidityArgs} (hix : e.IsIx o accs (.addLiquidity args)) (hq : o.other.Quiet)
    (hp : e.pre.world.ctl.pool = some p) (hpp : p.pricingProgram = sc.fc.programId) {s : LstState}
    (hs : e.pre.world.ctl.lsts[args.lstIndex]? = some s) (hc : sc.Serves s.solValueCalculator) :
    ∃ c c' v r0 total toRes toFee lp m signer userLst userLp feeAcc res,
      LiqParties sc.cfg e.pre.world accs args.lstIndex p s signer userLst userLp feeAcc res ∧
      sc.PricedBy o.chain s.solValueCalculator s.mint c ∧ sc.PricedBy o.chain s.solValueCalculator s.mint c' ∧
      (c.calculator L).lstToSol args.lstAmount = .ok v ∧ (c'.calculator L).lstToSol (bal e.pre.world.led res.key) = .ok r0 ∧
      total + s.solValue = p.totalSolValue + r0.min ∧ e.pre.world.led.mints p.lpTokenMint = some m ∧ LpMinted m.supply total v.min lp ∧ args.minLpOut ≤ lp ∧
      toRes + toFee = args.lstAmount ∧ (v.min ≠ 0 → toFee = 0) ∧
      ∀ k, bal e.post.world.led k + only userLst.key args.lstAmount k = bal e.pre.world.led k + only res.key toRes k + only feeAcc.key toFee k + only userLp.key lp k := by
  obtain ⟨p', s', signer, userLst, userLp, feeAcc, res, m, r0, v, vAfter, total, toRes, toFee, lp, hl, hm, _, _, h1, h2, h3, h4, _, h6, _, h7, h8, h9, _, hb, _⟩ :=
    C06_addLiquidity (e.pre.quiet hq) (SysEvent.ix he hix)
  have := hl.pool; rw [hp] at this; injection this with this; subst this
  have := hl.entry; rw [hs] at this; injection this with this; subst this
  obtain ⟨c', hc', hr0⟩ := Sys.calcAnswer hc h1
  obtain ⟨c, hc, hr⟩ := Sys.calcAnswer hc h3
  obtain ⟨w, ms, _, hms, ha⟩ := h4
  rw [hpp] at ha
  have hv := (flat_lp_prices (e.pre.flatPriced o)).1 _ _ _ _ _ _ _ ha
  subst hv
  refine ⟨c, c', v, r0, total, toRes, toFee, lp, m, signer, userLst, userLp, feeAcc, res, hl, hc, hc', hr, hr0, h2, hm, h6, h7, h9, fun hv0 => ?_, hb⟩
  rw [h8 hv0]; simp [cdiv]

/-- C67: a redemption of LP tokens worth `v` pays `solToLst(v − ⌈v · fee / 10000⌉).min` of the LST, by its stake pool, where `fee` is the withdrawal fee that the flat-fee
program's manager has set. -/
theorem C67_removeLiquidity (he : e ∈ systemEvents L s₀ h) {args : RemoveLiquidityArgs} (hix : e.IsIx o accs (.removeLiquidity args)) (hq : o.other.Quiet)
    (hp : e.pre.world.ctl.pool = some p) (hpp : p.pricingProgram = sc.fc.programId) {s : LstState}
    (hs : e.pre.world.ctl.lsts[args.lstIndex]? = some s) (hc : sc.Serves s.solValueCalculator) :
    ∃ c c' st v r0 total out fee m signer userLst userLp feeAcc res,
      LiqParties sc.cfg e.pre.world accs args.lstIndex p s signer userLst userLp feeAcc res ∧
      sc.PricedBy o.chain s.solValueCalculator s.mint c ∧ sc.PricedBy o.chain s.solValueCalculator s.mint c' ∧ (e.pre.flat L).state = some st ∧
      (c'.calculator L).lstToSol (bal e.pre.world.led res.key) = .ok r0 ∧ total + s.solValue = p.totalSolValue + r0.min ∧
      e.pre.world.led.mints p.lpTokenMint = some m ∧ LpValue m.supply total args.lpTokenAmount v ∧
      (c.calculator L).solToLst (v - cdiv (v * st.lpWithdrawalFeeBps) 10000) = .ok out ∧ args.minLstOut ≤ out.min ∧
      ∀ k, bal e.post.world.led k + only userLp.key args.lpTokenAmount k + only res.key (out.min + fee) k =
        bal e.pre.world.led k + only userLst.key out.min k + only feeAcc.key fee k := by
  obtain ⟨p', s', signer, userLst, userLp, feeAcc, res, m, r0, total, v, vAfter, out, fee, hl, hm, _, _, h1, h2, h3, h4, _, h6, _, h7, _, h9, hb, _⟩ :=
    C07_removeLiquidity (e.pre.quiet hq) (SysEvent.ix he hix)
  have := hl.pool; rw [hp] at this; injection this with this; subst this
  have := hl.entry; rw [hs] at this; injection this with this; subst this
  obtain ⟨c', hc', hr0⟩ := Sys.calcAnswer hc h1
  obtain ⟨c, hc, hr⟩ := Sys.calcAnswer hc h6
  obtain ⟨w, ms, _, hms, ha⟩ := h4
  rw [hpp] at ha
  obtain ⟨st, hst, rfl⟩ := (flat_lp_prices (e.pre.flatPriced o)).2 _ _ _ _ _ _ _ ha
  exact ⟨c, c', st, v, r0, total, out, fee, m, signer, userLst, userLp, feeAcc, res, hl, hc, hc', hst, hr0, h2, hm, h3, hr, h7, hb⟩

end

/-! ### C68 -/

/-- Every LST listed around the event is served by a calculator of the repository, and `val` are the figures of its (only) stake pool on the chain at that moment. Programs of
others move no tokens while they are asked. -/
def SysEvent.Reads (val : Valuation) (e : SysEvent sc) : Prop :=
  (∀ m, (val m).Usable) ∧ ∀ o accs data, e.act = .controller o accs data → o.other.Quiet ∧
    ∀ s, s ∈ e.pre.world.ctl.lsts ∨ s ∈ e.post.world.ctl.lsts → sc.Serves s.solValueCalculator ∧
      ∀ c, sc.PricedBy o.chain s.solValueCalculator s.mint c → c = val s.mint

/-- A period in which no stake pool loses value; `q` sums the rounding losses per LP token (`Event.loss`). -/
inductive SysRising (L : RatioLib) : Valuation → List (SysEvent sc) → Valuation → Rat → Prop
  | nil (val : Valuation) : SysRising L val [] val 0
  | cons {val val₁ val' : Valuation} {e : SysEvent sc} {es : List (SysEvent sc)} {q : Rat} (up : ∀ m x, (val m).f x ≤ (val₁ m).f x)
      (reads : e.Reads val₁) (rest : SysRising L val₁ es val' q) :
      SysRising L val (e :: es) val' ((e.ctl L).loss val₁ / lpSupply e.post.world + q)

theorem SysEvent.Reads.follows {val : Valuation} {e : SysEvent sc} (h : e.Reads val) : (e.ctl L).Follows L val := by
  refine ⟨h.1, fun c hc => ?_⟩
  cases ha : e.act with
  | controller o accs data =>
    obtain ⟨hq, hl⟩ := h.2 o accs data ha
    simp only [SysEvent.ctl, ha, SysAction.ctl] at hc
    injection hc with hc; subst hc
    refine ⟨e.pre.quiet hq, fun s hs => ?_⟩
    obtain ⟨h1, h2⟩ := hl s hs
    intro n w ms r l hm
    constructor
    · intro a hans
      obtain ⟨c, hc, hr⟩ := Sys.calcAnswer (L := L) (s := e.pre) (o := o) (l := w.led) h1 ⟨w, ms, rfl, hm, (e.pre.quiet hq).calcF hans ▸ hans⟩
      rw [← h2 c hc]; exact hr
    · intro a hans
      obtain ⟨c, hc, hr⟩ := Sys.calcAnswer (L := L) (s := e.pre) (o := o) (l := w.led) h1 ⟨w, ms, rfl, hm, (e.pre.quiet hq).calcF hans ▸ hans⟩
      rw [← h2 c hc]; exact hr
  | ext f ok => simp only [SysEvent.ctl, ha, SysAction.ctl] at hc; cases hc
  | flat c => simp only [SysEvent.ctl, ha, SysAction.ctl] at hc; cases hc
  | «calc» pc mem c => simp only [SysEvent.ctl, ha, SysAction.ctl] at hc; cases hc

theorem SysRising.rising {val val' : Valuation} {es : List (SysEvent sc)} {q : Rat} (h : SysRising L val es val' q) :
    Rising L val (es.map (SysEvent.ctl L)) val' q := by
  induction h with
  | nil => exact .nil _
  | cons up reads _ ih => exact .cons up reads.follows ih

/-- C68: in the system, as long as no stake pool loses value, the value of an LP token never falls, but for the rounding losses of deposits and redemptions, whatever anybody
does with any of the programs: fees may be changed by the flat-fee program's manager and pools relisted along the way. -/
theorem C68_lp_price {s₀ : Sys sc} (hf : s₀.Fresh) {h₀ h : List (SysTx sc)} {val val' : Valuation} {q : Rat}
    (hb : Backed sc.cfg val (runSystem L s₀ h₀).world) (hv : SysRising L val (systemEvents L (runSystem L s₀ h₀) h) val' q)
    (hS : ∀ e ∈ systemEvents L (runSystem L s₀ h₀) h, lpSupply e.pre.world ≠ 0 ∧ lpSupply e.post.world ≠ 0) :
    lpPrice (runSystem L s₀ h₀).world ≤ lpPrice (runSystem L s₀ (h₀ ++ h)).world + q := by
  obtain ⟨g1, g2⟩ := ctlHistory_run (L := L) (runSystem L s₀ h₀) h
  have hend : runSystem L s₀ (h₀ ++ h) = runSystem L (runSystem L s₀ h₀) h := by simp [runSystem]
  rw [hend, ← g1]
  refine C51_lp_price (C65_reachable hf h₀) hb (by rw [g2]; exact hv.rising) fun e he => ?_
  rw [g2, List.mem_map] at he
  obtain ⟨x, hx, rfl⟩ := he
  exact hS x hx

/-- C68: in the system nobody profits from trading with the pool: over any history of users' instructions by the owners of the accounts `us`, of changes of fees, managers and
acknowledged programs, and of other movements of tokens among these accounts and the pool's (gifts), while no stake pool loses value,
the wealth of `us` (their LSTs at rates at least their stake pools', their LP tokens at the recorded price) grows by no more than what the reserves were already worth beyond
the recorded total, plus rounding losses. -/
theorem C68_no_profit {s₀ : Sys sc} (hf : s₀.Fresh) {h₀ h : List (SysTx sc)} {val val' : Valuation} {rate : Pubkey → Rat} {us : List Pubkey} {q : Rat}
    (hb : Backed sc.cfg val (runSystem L s₀ h₀).world) (hS0 : lpSupply (runSystem L s₀ h₀).world ≠ 0)
    (hn : (us ++ poolKeys sc.cfg (runSystem L s₀ h₀).world).Nodup)
    (hu : ∀ e ∈ systemEvents L (runSystem L s₀ h₀) h,
      (∃ o accs ix, e.IsIx o accs ix ∧ ix.IsUser ∧ ∀ a ∈ accs, a.key ∈ us ++ poolKeys sc.cfg (runSystem L s₀ h₀).world) ∨
      ((∀ o accs data, e.act ≠ .controller o accs data) ∧
        MovesAmong (lpMintOf e.pre.world) (us ++ poolKeys sc.cfg (runSystem L s₀ h₀).world) e.pre.world.led e.post.world.led))
    (hv : SysRising L val (systemEvents L (runSystem L s₀ h₀) h) val' q)
    (hS : ∀ e ∈ systemEvents L (runSystem L s₀ h₀) h, lpSupply e.pre.world ≠ 0 ∧ lpSupply e.post.world ≠ 0)
    (hlp : ∀ s ∈ (runSystem L s₀ h₀).world.ctl.lsts, s.mint ≠ lpMintOf (runSystem L s₀ h₀).world)
    (hrate : ∀ m x, ((val' m).f x : Rat) ≤ rate m * x)
    (hO : (us.map (balOf (runSystem L s₀ h₀).world.led (lpMintOf (runSystem L s₀ h₀).world))).sum ≤ lpSupply (runSystem L s₀ h₀).world) :
    wealth rate (runSystem L s₀ (h₀ ++ h)).world us ≤
      wealth rate (runSystem L s₀ h₀).world us + gap sc.cfg rate (runSystem L s₀ h₀).world + q * othersLp (runSystem L s₀ h₀).world us := by
  obtain ⟨g1, g2⟩ := ctlHistory_run (L := L) (runSystem L s₀ h₀) h
  have hend : runSystem L s₀ (h₀ ++ h) = runSystem L (runSystem L s₀ h₀) h := by simp [runSystem]
  rw [hend, ← g1]
  have hreads : ∀ {val val' : Valuation} {es : List (SysEvent sc)} {q : Rat}, SysRising L val es val' q → ∀ e ∈ es, ∃ v : Valuation, e.Reads v := by
    intro val val' es q hr
    induction hr with
    | nil => simp
    | cons _ r _ ih => exact List.forall_mem_cons.2 ⟨⟨_, r⟩, ih⟩
  refine C52_no_profit (C65_reachable hf h₀) hb hS0 hn ?_ (by rw [g2]; exact hv.rising) ?_ hlp hrate hO
  · intro e he
    rw [g2, List.mem_map] at he
    obtain ⟨x, hx, rfl⟩ := he
    rcases hu x hx with ⟨o, accs, ix, ⟨data, ha, hd⟩, hi, hk⟩ | ⟨ha, hm⟩
    · obtain ⟨v, hr⟩ := hreads hv x hx
      exact .inl ⟨⟨x.pre.env L o, accs, data⟩, ix, by simp only [SysEvent.ctl, ha, SysAction.ctl], x.pre.quiet (hr.2 o accs data ha).1, hd, hi, hk⟩
    · refine .inr ⟨fun c hc => ?_, hm⟩
      revert hc ha
      simp only [SysEvent.ctl]
      cases x.act <;> simp [SysAction.ctl]
  · intro e he
    rw [g2, List.mem_map] at he
    obtain ⟨x, hx, rfl⟩ := he
    exact hS x hx

/-! ### Reading off events -/

theorem sysActionEvents_act {tx : TxInfo} {as : List (SysAction sc)} {s : Sys sc} {e : SysEvent sc} (he : e ∈ sysActionEvents L tx s as) : e.act ∈ as := by
  induction as generalizing s with
  | nil => cases he
  | cons a as ih =>
    unfold sysActionEvents at he
    split at he
    · rcases List.mem_cons.1 he with rfl | he
      · exact List.mem_cons_self
      · exact List.mem_cons_of_mem _ (ih he)
    · cases he

theorem sysStepEvents_act {ixs : List TopIx} {i : Nat} {ts : List (SysStep sc)} {s : Sys sc} {e : SysEvent sc} (he : e ∈ sysStepEvents L ixs i s ts) :
    ∃ t ∈ ts, e.act ∈ t.actions := by
  induction ts generalizing s i with
  | nil => cases he
  | cons t ts ih =>
    unfold sysStepEvents at he
    split at he
    · rcases List.mem_append.1 he with he | he
      · exact ⟨t, List.mem_cons_self, sysActionEvents_act he⟩
      · obtain ⟨t', h1, h2⟩ := ih he
        exact ⟨t', List.mem_cons_of_mem _ h1, h2⟩
    · cases he

theorem systemEvents_act {s : Sys sc} {h : List (SysTx sc)} {e : SysEvent sc} (he : e ∈ systemEvents L s h) : ∃ t ∈ h, ∃ x ∈ t, e.act ∈ x.actions := by
  induction h generalizing s with
  | nil => cases he
  | cons t h ih =>
    simp only [systemEvents] at he
    rcases List.mem_append.1 he with he | he
    · unfold SysTx.events at he
      split at he
      · obtain ⟨x, h1, h2⟩ := sysStepEvents_act he
        exact ⟨t, List.mem_cons_self, x, h1, h2⟩
      · cases he
    · obtain ⟨t', h1, h2⟩ := ih he
      exact ⟨t', List.mem_cons_of_mem _ h1, h2⟩

theorem systemEvents_append (s : Sys sc) (h h' : List (SysTx sc)) :
    systemEvents L s (h ++ h') = systemEvents L s h ++ systemEvents L (runSystem L s h) h' := by
  induction h generalizing s with
  | nil => rfl
  | cons t h ih => simp only [List.cons_append, systemEvents, ih, List.append_assoc]; rfl

/-- A transaction of one instruction of the controller that succeeds is an event. -/
theorem systemEvents_single {s : Sys sc} {h : List (SysTx sc)} {o : Outside sc} {accs : List Acc} {data : List UInt8}
    (hr : (SysTx.run L (runSystem L s h) [.controller o accs data]).toOption.isSome = true) :
    ∃ e : SysEvent sc, e.pre = runSystem L s h ∧ e.act = .controller o accs data ∧ e.post = runSystem L s (h ++ [[.controller o accs data]]) ∧
      systemEvents L s (h ++ [[.controller o accs data]]) = systemEvents L s h ++ [e] := by
  obtain ⟨s', hs⟩ := Option.isSome_iff_exists.1 hr
  have hs : SysTx.run L (runSystem L s h) [.controller o accs data] = .ok s' := by
    cases hx : SysTx.run L (runSystem L s h) [.controller o accs data] with
    | error e => rw [hx] at hs; cases hs
    | ok x => rw [hx] at hs; injection hs with hs; rw [hs]
  have hend : runSystem L s (h ++ [[.controller o accs data]]) = s' := by
    have : runSystem L s (h ++ [[.controller o accs data]]) = SysTx.apply L (runSystem L s h) [.controller o accs data] := by
      simp only [runSystem, List.foldl_append, List.foldl_cons, List.foldl_nil]
    rw [this]; unfold SysTx.apply; rw [hs]
  have hs' := hs
  unfold SysTx.run at hs'
  simp only [runSysSteps, SysStep.actions, runSysActions, bind_ok] at hs'
  obtain ⟨_, ⟨a, ha, hb⟩, hc⟩ := hs'
  injection hb with hb; subst hb
  injection hc with hc; subst hc
  refine ⟨⟨⟨[⟨sc.cfg.programId, accs, data⟩], 0⟩, runSystem L s h, .controller o accs data, a⟩, rfl, rfl, hend.symm, ?_⟩
  rw [systemEvents_append]
  congr 1
  simp only [systemEvents, SysTx.events, hs, List.append_nil, sysStepEvents]
  have hact : runSysActions L ⟨List.map SysStep.top [SysStep.controller o accs data], 0⟩ (runSystem L s h) (SysStep.controller o accs data).actions = .ok a := by
    simp only [SysStep.actions, runSysActions, bind_ok]; exact ⟨a, ha, rfl⟩
  have hev : sysActionEvents L ⟨List.map SysStep.top [SysStep.controller o accs data], 0⟩ (runSystem L s h) (SysStep.controller o accs data).actions =
      [⟨⟨[⟨sc.cfg.programId, accs, data⟩], 0⟩, runSystem L s h, .controller o accs data, a⟩] := by
    unfold SysStep.actions sysActionEvents
    have ha' : (SysAction.controller o accs data).run L ⟨List.map SysStep.top [SysStep.controller o accs data], 0⟩ (runSystem L s h) = .ok a := ha
    rw [ha']; rfl
  rw [hact, hev]

theorem SysRising.const {val : Valuation} (hn : ∀ m, (val m).depositSlack = 0 ∧ (val m).redeemSlack = 0) {es : List (SysEvent sc)}
    (hf : ∀ e ∈ es, e.Reads val) : SysRising L val es val 0 := by
  induction es with
  | nil => exact .nil _
  | cons e es ih =>
    have h1 := SysRising.cons (L := L) (fun m x => Nat.le_refl _) (hf e List.mem_cons_self) (ih fun e he => hf e (List.mem_cons_of_mem _ he))
    have h2 : (e.ctl L).loss val = 0 := by
      unfold Event.loss
      split
      · rfl
      · split
        · rename_i a _; cases (e.ctl L).pre.ctl.lsts[a.lstIndex]? with
          | none => rfl
          | some s => exact (hn _).1
        · rename_i a _; cases (e.ctl L).pre.ctl.lsts[a.lstIndex]? with
          | none => rfl
          | some s => exact (hn _).2
        · rfl
    rw [h2] at h1; simpa using h1

end S

/-! ### A deployment with a pool of two LSTs: wrapped SOL (21) and Lido's (22), priced by the flat-fee program -/
namespace S.Ex

def sysc : SysCfg where
  cfg := cfg
  fc := fc
  pools := [jup.lido, jup.marinade, jup.spl .spl, jup.spl .sanctumSpl, jup.spl .sanctumSplMulti]
  wsolCalc := 31
  wsolMint := 21
  noFee := 800
  distinct := by decide

/-- Lido's accounts on the chain: computed in epoch `e`, the program last upgraded in slot `slot`. -/
def onchain (e slot : Nat) : OnChain where
  owner _ := 0
  data k := if k = 700 then lidoBytes e else if k = 702 then toLE 4 2 ++ toLE 32 703
    else if k = 703 then toLE 4 3 ++ toLE 8 slot ++ List.replicate 40 0 else []
  epoch := 0

def outside (e slot : Nat) : Outside sysc := ⟨onchain e slot, fview, Env.pure cfg calcF priceF⟩

def lidoAccs : List Acc := [ro 32, ro 701, ro 700, ro 702, ro 703]

/-- A transaction of one instruction of the controller while Lido's program is the one of slot 5000. -/
def sysCall (accs : List Acc) (ix : Ix) : SysTx sysc := [.controller (outside 0 5000) accs ix.encode]

/-- A transaction of one instruction of the flat-fee program. -/
def sysFlat (c : FlatCall fc) : SysTx sysc := [.foreign ⟨7, c.accs, c.data⟩ (by show (7 : Nat) ≠ 13; decide) [.flat c]]

/-- A transaction of one instruction of the Lido calculator. -/
def sysLido (slot : Nat) (accs : List Acc) (ix : CalcIx) : SysTx sysc :=
  [.foreign ⟨32, accs, ix.encode⟩ (by show (32 : Nat) ≠ 13; decide) [.calc jup.lido (by simp [sysc]) ⟨onchain 0 slot, accs, ix.encode⟩]]

def sysLiqB : List Acc := liqB.take 11 ++ lidoAccs ++ [ro 7, ro 300]
def sysSwap : List Acc := swapAB.take 12 ++ [ro 31] ++ lidoAccs ++ [ro 7, ro 1021, ro 1022]

/-- The programs are set up (with a failed attempt of a stranger to acknowledge Lido's program), the LSTs listed, deposited and traded; a swap while Lido's program is a newer
one than the one acknowledged (slot 6000) fails. -/
def sysHist : List (SysTx sysc) :=
  fhist.map sysFlat ++
  [sysLido 5000 [sg 40, rw 701, ro 11] .init,
   sysLido 5000 [sg 40, rw 701, ro 702, ro 703] .updateLastUpgradeSlot,
   sysLido 5000 [sg 602, rw 701, ro 702, ro 703] .updateLastUpgradeSlot,
   sysCall [sg 6, sg 6, rw 1, rw 20, ro 8, ro 11] .initialize,
   sysCall [sg 6, sg 6, ro 21, rw resA, rw feeA, rw 5, ro 31, ro 1, rw 2, ro 10, ro 11, ro 8] .addLst,
   sysCall [sg 6, sg 6, ro 22, rw resB, rw feeB, rw 5, ro 32, ro 1, rw 2, ro 10, ro 11, ro 8] .addLst,
   sysCall liqA (.addLiquidity ⟨1, 0, 30000, 1⟩),
   sysCall sysLiqB (.addLiquidity ⟨5, 1, 20000, 1⟩),
   [.controller (outside 0 6000) sysSwap (Ix.swapExactIn ⟨1, 5, 0, 1, 10, 3000⟩).encode],
   sysCall sysSwap (.swapExactIn ⟨1, 5, 0, 1, 10, 3000⟩),
   sysCall sysSwap (.swapExactOut ⟨1, 5, 0, 1, 5000, 2000⟩),
   sysCall sysLiqB (.removeLiquidity ⟨5, 1, 10000, 1⟩)]

def sys0 : Sys sysc := ⟨w0, [], fun _ => []⟩

theorem sys0_fresh : sys0.Fresh := ⟨w0_fresh, rfl, fun _ => rfl⟩

def sysAt (n : Nat) : Sys sysc := runSystem .ex sys0 (sysHist.take n)

theorem sysAt_fresh (n : Nat) : Reachable cfg .ex (sysAt n).world := C65_reachable sys0_fresh _

-- Of the 20 transactions 16 succeed; each program ends up as set.
example : (systemEvents .ex sys0 sysHist).length = 16 ∧ ((sysAt 20).flat .ex).state = some ⟨305, 25⟩ ∧
    (sysAt 20).calc .ex jup.lido = some ⟨602, 5000⟩ ∧ (sysAt 20).world.ctl.lsts.map (·.solValue) = [36008, 14029] := by decide +kernel
example := C65_together (L := .ex) sys0_fresh sysHist

/-- Events of the last transactions. -/
theorem sysEv {n : Nat} {o : Outside sysc} {accs : List Acc} {ix : Ix} (h : sysHist.take (n + 1) = sysHist.take n ++ [[.controller o accs ix.encode]])
    (hd : decodeIx ix.encode = .ok ix) (hr : (SysTx.run .ex (sysAt n) [.controller o accs ix.encode]).toOption.isSome = true) :
    ∃ e : SysEvent sysc, e.pre = sysAt n ∧ e.post = sysAt (n + 1) ∧ e.IsIx o accs ix ∧
      systemEvents .ex sys0 (sysHist.take (n + 1)) = systemEvents .ex sys0 (sysHist.take n) ++ [e] := by
  obtain ⟨e, h1, h2, h3, h4⟩ := systemEvents_single (s := sys0) (h := sysHist.take n) hr
  rw [← h] at h3 h4
  exact ⟨e, h1, h3, ⟨_, h2, hd⟩, h4⟩

-- C66: the swap of Lido's token (transaction 18) is priced by the program of slot 5000, acknowledged before. (Transaction 17, while the program is newer, failed.)
example : ∃ e : SysEvent sysc, e.IsIx (outside 0 5000) sysSwap (.swapExactIn ⟨1, 5, 0, 1, 10, 3000⟩) ∧
    ∃ slot, UpgradedAt (onchain 0 5000) 702 slot ∧ (slot = 0 ∨ AcknowledgedIn .ex jup.lido slot (systemEvents .ex sys0 (sysHist.take 17))) := by
  obtain ⟨e, hpre, _, hix, hev⟩ := sysEv (n := 17) (o := outside 0 5000) (accs := sysSwap) (ix := .swapExactIn ⟨1, 5, 0, 1, 10, 3000⟩) rfl
    (by decide +kernel) (by decide +kernel)
  obtain ⟨s, hs, hc⟩ : ∃ s, (sysAt 17).world.ctl.lsts[1]? = some s ∧ s.solValueCalculator = 32 :=
    ⟨⟨0, 255, 255, 30000, 22, 32⟩, by decide +kernel, rfl⟩
  exact ⟨e, hix, (C66_reviewed (L := .ex) (i := 1) (s := s) (pc := jup.lido) sys0_fresh hev hix (.inr rfl) (by rw [hpre]; exact hs) (by simp [sysc]) hc
    (fun _ => readProgramdataAddr_ok.1 (by decide +kernel))).2⟩

-- C67: the swaps, deposit and redemption are priced by Lido's figures and the flat fees.
theorem sys_lists : (sysAt 17).world.ctl.pool.map (·.pricingProgram) = some 7 ∧ (sysAt 18).world.ctl.pool.map (·.pricingProgram) = some 7 ∧
    (sysAt 15).world.ctl.pool.map (·.pricingProgram) = some 7 ∧ (sysAt 19).world.ctl.pool.map (·.pricingProgram) = some 7 ∧
    ∀ n ∈ [15, 17, 18, 19], (sysAt n).world.ctl.lsts[0]?.map (·.solValueCalculator) = some 31 ∧ (sysAt n).world.ctl.lsts[1]?.map (·.solValueCalculator) = some 32 := by
  decide +kernel

theorem serves (s : LstState) (h : s.solValueCalculator = 31 ∨ s.solValueCalculator = 32) : sysc.Serves s.solValueCalculator := by
  rcases h with h | h
  · exact .inl h
  · exact .inr ⟨jup.lido, by simp [sysc], h⟩

theorem of_map {α β : Type} {o : Option α} {f : α → β} {y : β} (h : o.map f = some y) : ∃ x, o = some x ∧ f x = y := by
  cases o with
  | none => cases h
  | some x => injection h with h; exact ⟨x, rfl, h⟩

example : ∃ e ∈ systemEvents .ex sys0 (sysHist.take 18), ∃ ci co fi fo vi out n, sysc.PricedBy (onchain 0 5000) 31 21 ci ∧ sysc.PricedBy (onchain 0 5000) 32 22 co ∧
    (e.pre.flat .ex).feesOf fc 21 = some fi ∧ (e.pre.flat .ex).feesOf fc 22 = some fo ∧ (ci.calculator .ex).lstToSol 3000 = .ok vi ∧
    ((n : Nat) : Int) = 10000 - (fi.inputFeeBps + fo.outputFeeBps) ∧ (co.calculator .ex).solToLst (vi.min * n / 10000) = .ok out := by
  obtain ⟨e, hpre, _, hix, hev⟩ := sysEv (n := 17) (o := outside 0 5000) (accs := sysSwap) (ix := .swapExactIn ⟨1, 5, 0, 1, 10, 3000⟩) rfl
    (by decide +kernel) (by decide +kernel)
  have he : e ∈ systemEvents .ex sys0 (sysHist.take 18) := by rw [hev]; simp
  obtain ⟨p, hp, hpp⟩ := of_map sys_lists.1
  have hA : (sysAt 17).world.ctl.lsts[0]? = some ⟨0, 255, 255, 30000, 21, 31⟩ := by decide +kernel
  have hB : (sysAt 17).world.ctl.lsts[1]? = some ⟨0, 255, 255, 30000, 22, 32⟩ := by decide +kernel
  rw [← hpre] at hp hA hB
  obtain ⟨ci, co, fi, fo, vi, out, n, _, _, _, _, _, _, _, h1, h2, h3, h4, h5, h6, h7, _⟩ :=
    C67_swapExactIn he hix Env.pure_quiet hp hpp hA hB (serves _ (.inl rfl)) (serves _ (.inr rfl))
  exact ⟨e, he, ci, co, fi, fo, vi, out, n, h1, h2, h3, h4, h5, h6, h7⟩
example : bal (sysAt 18).world.led 41 + 3000 = bal (sysAt 17).world.led 41 ∧ bal (sysAt 18).world.led 42 = bal (sysAt 17).world.led 42 + 3000 * 9980 / 10000 * 2 / 3 := by
  decide +kernel

theorem sys_prog {n : Nat} (h : (sysAt n).world.ctl.pool.map (·.pricingProgram) = some 7) : ∃ p, (sysAt n).world.ctl.pool = some p ∧ p.pricingProgram = sysc.fc.programId :=
  of_map h

example : ∃ e ∈ systemEvents .ex sys0 (sysHist.take 19), ∃ p si so, e.IsIx (outside 0 5000) sysSwap (.swapExactOut ⟨1, 5, 0, 1, 5000, 2000⟩) ∧ (outside 0 5000).other.Quiet ∧
    e.pre.world.ctl.pool = some p ∧ p.pricingProgram = sysc.fc.programId ∧ e.pre.world.ctl.lsts[0]? = some si ∧ e.pre.world.ctl.lsts[1]? = some so ∧
    sysc.Serves si.solValueCalculator ∧ sysc.Serves so.solValueCalculator := by
  obtain ⟨e, hpre, _, hix, hev⟩ := sysEv (n := 18) (o := outside 0 5000) (accs := sysSwap) (ix := .swapExactOut ⟨1, 5, 0, 1, 5000, 2000⟩) rfl
    (by decide +kernel) (by decide +kernel)
  obtain ⟨p, hp, hpp⟩ := sys_prog sys_lists.2.1
  obtain ⟨s0, h0, e0⟩ := of_map (sys_lists.2.2.2.2 18 (by simp)).1
  obtain ⟨s1, h1, e1⟩ := of_map (sys_lists.2.2.2.2 18 (by simp)).2
  rw [← hpre] at hp h0 h1
  exact ⟨e, by rw [hev]; simp, p, s0, s1, hix, Env.pure_quiet, hp, hpp, h0, h1, serves _ (.inl e0), serves _ (.inr e1)⟩

example : ∃ e ∈ systemEvents .ex sys0 (sysHist.take 16), ∃ p s, e.IsIx (outside 0 5000) sysLiqB (.addLiquidity ⟨5, 1, 20000, 1⟩) ∧ (outside 0 5000).other.Quiet ∧
    e.pre.world.ctl.pool = some p ∧ p.pricingProgram = sysc.fc.programId ∧ e.pre.world.ctl.lsts[1]? = some s ∧ sysc.Serves s.solValueCalculator := by
  obtain ⟨e, hpre, _, hix, hev⟩ := sysEv (n := 15) (o := outside 0 5000) (accs := sysLiqB) (ix := .addLiquidity ⟨5, 1, 20000, 1⟩) rfl
    (by decide +kernel) (by decide +kernel)
  obtain ⟨p, hp, hpp⟩ := sys_prog sys_lists.2.2.1
  obtain ⟨s1, h1, e1⟩ := of_map (sys_lists.2.2.2.2 15 (by simp)).2
  rw [← hpre] at hp h1
  exact ⟨e, by rw [hev]; simp, p, s1, hix, Env.pure_quiet, hp, hpp, h1, serves _ (.inr e1)⟩

example : ∃ e ∈ systemEvents .ex sys0 (sysHist.take 20), ∃ p s, e.IsIx (outside 0 5000) sysLiqB (.removeLiquidity ⟨5, 1, 10000, 1⟩) ∧ (outside 0 5000).other.Quiet ∧
    e.pre.world.ctl.pool = some p ∧ p.pricingProgram = sysc.fc.programId ∧ e.pre.world.ctl.lsts[1]? = some s ∧ sysc.Serves s.solValueCalculator := by
  obtain ⟨e, hpre, _, hix, hev⟩ := sysEv (n := 19) (o := outside 0 5000) (accs := sysLiqB) (ix := .removeLiquidity ⟨5, 1, 10000, 1⟩) rfl
    (by decide +kernel) (by decide +kernel)
  obtain ⟨p, hp, hpp⟩ := sys_prog sys_lists.2.2.2.1
  obtain ⟨s1, h1, e1⟩ := of_map (sys_lists.2.2.2.2 19 (by simp)).2
  rw [← hpre] at hp h1
  exact ⟨e, by rw [hev]; simp, p, s1, hix, Env.pure_quiet, hp, hpp, h1, serves _ (.inr e1)⟩

theorem lido_read : (readLido (lidoBytes 0)).toOption = some ⟨0, 2, 3⟩ := by decide +kernel

theorem lido_unique {slot : Nat} {x : LidoCalc} (h : readLido ((onchain 0 slot).data 700) = .ok x) : x = ⟨0, 2, 3⟩ := by
  have e : (onchain 0 slot).data 700 = lidoBytes 0 := by simp only [onchain, if_true]
  have h2 := lido_read
  rw [← e, h] at h2
  injection h2

/-- Lido's figures are the only ones for its token, whatever the slot of the program. -/
theorem lido_only {slot : Nat} {s : LstState} {c : AnyCalc} (hl : (s.mint = 22 ∧ s.solValueCalculator = 32) ∨ (s.mint = 21 ∧ s.solValueCalculator = 31))
    (h : sysc.PricedBy (onchain 0 slot) s.solValueCalculator s.mint c) : c = Ex.val s.mint := by
  rcases hl with ⟨e1, e2⟩ | ⟨e1, e2⟩
  · rw [e1, e2] at h; rw [e1]
    rcases h with ⟨h, _⟩ | ⟨pc, hpc, hp, k, hu⟩
    · exact absurd h (by decide)
    · simp only [sysc, List.mem_cons, List.not_mem_nil, or_false] at hpc
      rcases hpc with rfl | rfl | rfl | rfl | rfl
      · obtain ⟨x, rfl, _, hk, hx, _⟩ := hu
        subst hk
        rw [lido_unique (readLido_ok.2 hx)]; rfl
      all_goals exact absurd hp (by decide)
  · rw [e1, e2] at h; rw [e1]
    rcases h with ⟨_, _, rfl⟩ | ⟨pc, hpc, hp, k, hu⟩
    · rfl
    · simp only [sysc, List.mem_cons, List.not_mem_nil, or_false] at hpc
      rcases hpc with rfl | rfl | rfl | rfl | rfl <;> exact absurd hp (by decide)

theorem sys_outside {t : SysTx sysc} (ht : t ∈ sysHist) {x : SysStep sysc} (hx : x ∈ t) {o : Outside sysc} {accs : List Acc} {data : List UInt8}
    (ha : .controller o accs data ∈ x.actions) : ∃ slot, o = outside 0 slot := by
  simp only [sysHist, List.mem_append, List.mem_map, List.mem_cons, List.not_mem_nil, or_false] at ht
  rcases ht with ⟨c, _, rfl⟩ | ht
  · simp only [sysFlat, List.mem_cons, List.not_mem_nil, or_false] at hx
    subst hx; simp [SysStep.actions] at ha
  · rcases ht with rfl | rfl | rfl | rfl | rfl | rfl | rfl | rfl | rfl | rfl | rfl | rfl <;>
      simp only [sysCall, sysLido, List.mem_cons, List.not_mem_nil, or_false] at hx <;> subst hx <;>
      simp only [SysStep.actions, List.mem_cons, List.not_mem_nil, or_false, reduceCtorEq, SysAction.controller.injEq] at ha <;>
      exact ⟨_, ha.1⟩

theorem sys_reads {s : Sys sysc} {h : List (SysTx sysc)} (hh : ∀ t ∈ h, t ∈ sysHist)
    (hl : ∀ e ∈ systemEvents .ex s h, ∀ x ∈ e.pre.world.ctl.lsts ++ e.post.world.ctl.lsts, (x.mint = 22 ∧ x.solValueCalculator = 32) ∨
      (x.mint = 21 ∧ x.solValueCalculator = 31)) : ∀ e ∈ systemEvents .ex s h, e.Reads Ex.val := by
  intro e he
  refine ⟨fun m => ?_, fun o accs data ha => ?_⟩
  · unfold Ex.val; split
    · exact ⟨by decide, by decide⟩
    · trivial
  · obtain ⟨t, h1, x, h2, h3⟩ := systemEvents_act he
    rw [ha] at h3
    obtain ⟨slot, rfl⟩ := sys_outside (hh t h1) h2 h3
    refine ⟨Env.pure_quiet, fun s hs => ?_⟩
    have := hl e he s (List.mem_append.2 hs)
    exact ⟨serves s (this.elim (fun h => .inr h.2) fun h => .inl h.2), fun c hc => lido_only this hc⟩

theorem sys_backed {n : Nat} (hl : ∀ e ∈ systemEvents .ex sys0 (sysHist.take n), ∀ x ∈ e.pre.world.ctl.lsts ++ e.post.world.ctl.lsts,
    (x.mint = 22 ∧ x.solValueCalculator = 32) ∨ (x.mint = 21 ∧ x.solValueCalculator = 31)) : Backed cfg Ex.val (sysAt n).world := by
  obtain ⟨g1, g2⟩ := ctlHistory_run (L := .ex) sys0 (sysHist.take n)
  have := C51_backed (cfg := cfg) (L := .ex) (w := w0) ⟨w0, w0_fresh, [], rfl⟩ (val := Ex.val) (fun s hs => by cases hs)
    (h := ctlHistory .ex sys0 (sysHist.take n))
    (by have e := (SysRising.const (L := .ex) Ex.val_noFees (sys_reads (fun t ht => List.mem_of_mem_take ht) hl)).rising
        rw [← g2] at e; exact e)
  exact (congrArg (Backed cfg Ex.val) g1).mp this

/-- The two swaps and the redemption. -/
def sysTrades : List (SysTx sysc) := sysHist.drop 17

theorem sysTrades_mem : ∀ t ∈ sysTrades, t ∈ sysHist := fun _ ht => List.mem_of_mem_drop ht

-- C68: all hypotheses hold for them.
example : lpPrice (sysAt 17).world ≤ lpPrice (runSystem .ex sys0 (sysHist.take 17 ++ sysTrades)).world + 0 :=
  C68_lp_price sys0_fresh (sys_backed (by decide +kernel))
    (SysRising.const Ex.val_noFees (sys_reads sysTrades_mem (by decide +kernel))) (by decide +kernel)

/-- Accounts of the trades that are not the pool's. -/
def sysUs : List Pubkey := Ex.us ++ [701, 700, 702, 703, 1021, 1022, 300]

theorem sys_user {t : SysTx sysc} (ht : t ∈ sysTrades) {x : SysStep sysc} (hx : x ∈ t) {a : SysAction sysc} (ha : a ∈ x.actions) :
    ∃ o accs data ix, a = .controller o accs data ∧ decodeIx data = .ok ix ∧ ix.IsUser ∧ ∀ k ∈ accs, k.key ∈ sysUs ++ [resA, resB, feeA, feeB] := by
  have e : sysTrades = [sysCall sysSwap (.swapExactIn ⟨1, 5, 0, 1, 10, 3000⟩), sysCall sysSwap (.swapExactOut ⟨1, 5, 0, 1, 5000, 2000⟩),
    sysCall sysLiqB (.removeLiquidity ⟨5, 1, 10000, 1⟩)] := rfl
  rw [e] at ht
  simp only [sysCall, List.mem_cons, List.not_mem_nil, or_false] at ht
  rcases ht with rfl | rfl | rfl <;> simp only [List.mem_cons, List.not_mem_nil, or_false] at hx <;> subst hx <;>
    simp only [SysStep.actions, List.mem_cons, List.not_mem_nil, or_false] at ha <;> subst ha
  · exact ⟨_, _, _, .swapExactIn ⟨1, 5, 0, 1, 10, 3000⟩, rfl, by decide +kernel, trivial, by decide +kernel⟩
  · exact ⟨_, _, _, .swapExactOut ⟨1, 5, 0, 1, 5000, 2000⟩, rfl, by decide +kernel, trivial, by decide +kernel⟩
  · exact ⟨_, _, _, .removeLiquidity ⟨5, 1, 10000, 1⟩, rfl, by decide +kernel, trivial, by decide +kernel⟩

example : wealth Ex.rate (runSystem .ex sys0 (sysHist.take 17 ++ sysTrades)).world sysUs ≤
    wealth Ex.rate (sysAt 17).world sysUs + gap cfg Ex.rate (sysAt 17).world + 0 * othersLp (sysAt 17).world sysUs :=
  C68_no_profit (L := .ex) sys0_fresh (sys_backed (by decide +kernel)) (by decide +kernel) (by decide +kernel)
    (fun e he => by
      obtain ⟨t, h1, x, h2, h3⟩ := systemEvents_act he
      obtain ⟨o, accs, data, ix, g1, g2, g3, g4⟩ := sys_user h1 h2 h3
      exact .inl ⟨o, accs, ix, ⟨data, g1, g2⟩, g3, (show poolKeys cfg (sysAt 17).world = [resA, resB, feeA, feeB] by decide +kernel) ▸ g4⟩)
    (SysRising.const Ex.val_noFees (sys_reads sysTrades_mem (by decide +kernel))) (by decide +kernel) (by decide +kernel) Ex.rate_le (by decide +kernel)
example : wealth Ex.rate (sysAt 17).world sysUs = 2500000 ∧ wealth Ex.rate (sysAt 20).world sysUs < 2500000 ∧
    gap cfg Ex.rate (sysAt 17).world = 0 := by decide +kernel

end S.Ex
