import Verif.Props.Rebalance
/-
C08: swaps and deposits never lower the recorded total SOL value, whatever the calculators and the pricing program answer.
-/
set_option autoImplicit false
namespace S

/-- One sync: the total moves by the change of the entry's value. -/
theorem SyncRun.total {cfg : Cfg} {env : Env cfg} {n : Nat} {w : World} {res : Pubkey} {c : CalcCpi} {i : Nat}
    {w' : World} {acc : TokenAcc} {r : Range} (h : SyncRun env n w res c i w' acc r) {p p' : PoolState} {s : LstState}
    (hp : w.ctl.pool = some p) (hp' : w'.ctl.pool = some p') (hs : w.ctl.lsts[i]? = some s) :
    p'.totalSolValue + s.solValue = p.totalSolValue + r.min := by
  obtain ⟨p0, s0, f⟩ := ctlSync_ok.1 h.sync
  have e1 := f.pool; rw [hp] at e1; injection e1 with e1; subst e1
  have e2 := f.lst; rw [hs] at e2; injection e2 with e2; subst e2
  have e3 := congrArg Ctl.pool f.eq
  rw [hp'] at e3; injection e3 with e3; subst e3
  have := f.le
  show p.totalSolValue - s.solValue + r.min + s.solValue = _
  omega

theorem SyncRun.other {cfg : Cfg} {env : Env cfg} {n : Nat} {w : World} {res : Pubkey} {c : CalcCpi} {i : Nat}
    {w' : World} {acc : TokenAcc} {r : Range} (h : SyncRun env n w res c i w' acc r) {j : Nat} (hj : i ≠ j) :
    w'.ctl.lsts[j]? = w.ctl.lsts[j]? := by
  obtain ⟨p0, s0, f⟩ := ctlSync_ok.1 h.sync
  have e3 := congrArg Ctl.lsts f.eq
  rw [e3]; exact List.getElem?_set_ne hj

theorem SyncRun.pool' {cfg : Cfg} {env : Env cfg} {n : Nat} {w : World} {res : Pubkey} {c : CalcCpi} {i : Nat}
    {w' : World} {acc : TokenAcc} {r : Range} (h : SyncRun env n w res c i w' acc r) : ∃ p', w'.ctl.pool = some p' := by
  obtain ⟨p0, s0, f⟩ := ctlSync_ok.1 h.sync
  have e3 := congrArg Ctl.pool f.eq
  exact ⟨_, e3⟩

/-- The entries at indices `i` and `j` have just been revalued: `rs`, `rd` are the answers of their calculators, given
during instruction execution `env` as calls 0 and 1, to the question how much the reserves accounts `kSrc`, `kDst` hold
(`sa`, `da` at that moment) are worth in SOL. -/
structure FreshValues {cfg : Cfg} (env : Env cfg) (w : World) (kSrc kDst : Pubkey) (src dst : LstState) (rs rd : Nat) :
    Prop where
  answers : ∃ sa da ms md w1 l2 xs xd, w.led.tok kSrc = some sa ∧
    ms.head?.map Acc.key = some src.mint ∧ md.head?.map Acc.key = some dst.mint ∧
    env.askCalc 0 w src.solValueCalculator ms (.lstToSol sa.amount) = .ok (⟨rs, xs⟩, w1.led) ∧
    w1.led.tok kDst = some da ∧
    env.askCalc 1 w1 dst.solValueCalculator md (.lstToSol da.amount) = .ok (⟨rd, xd⟩, l2)

theorem verifySwapCpis_sel {ls : List LstState} {p : PoolState} {sm dm : Pubkey} {suf : List Acc} {sa da si di : Nat}
    {c : SwapCpis} {src dst : LstState} (h : verifySwapCpis ls p sm dm suf sa da si di = .ok c)
    (hs : ls[si]? = some src) (hd : ls[di]? = some dst) :
    CalcSel c.src sm src ∧ CalcSel c.dst dm dst ∧ c.pricing.program = p.pricingProgram ∧ c.pricing.mints = [sm, dm] := by
  simp only [verifySwapCpis, verifySrcDstCpis, bind_ok, Prod.exists, splitAt_ok, pure_ok] at h
  obtain ⟨x, y, _, c', ⟨x', y', _, cs, hcs, cd, hcd, rfl⟩, pr, hpr, rfl⟩ := h
  obtain ⟨a, r, _, rfl, hk⟩ := verifyPriceCpi_ok.1 hpr
  exact ⟨verifyCalcCpi_sel hcs hs, verifyCalcCpi_sel hcd hd, hk, rfl⟩

theorem verifyLpCpis_sel {ls : List LstState} {p : PoolState} {m : Pubkey} {suf : List Acc} {ca i : Nat}
    {c : LpCpis} {s : LstState} (h : verifyLpCpis ls p m suf ca i = .ok c) (hs : ls[i]? = some s) :
    CalcSel c.lst m s ∧ c.pricing.program = p.pricingProgram ∧ c.pricing.mints = [m] := by
  simp only [verifyLpCpis, bind_ok, Prod.exists, splitAt_ok, pure_ok] at h
  obtain ⟨x, y, _, cl, hcl, pr, hpr, rfl⟩ := h
  obtain ⟨a, r, _, rfl, hk⟩ := verifyPriceCpi_ok.1 hpr
  exact ⟨verifyCalcCpi_sel hcl hs, hk, rfl⟩

theorem SwapRun.noLoss {cfg : Cfg} {L : RatioLib} {env : Env cfg} {w : World} {accs : List Acc}
    {srcAccs dstAccs srcIdx dstIdx srcIn dstOut : Nat} {w' : World}
    (r : SwapRun L env w accs srcAccs dstAccs srcIdx dstIdx srcIn dstOut w') :
    ∃ p p' src dst srcRes dstRes rs rd, w.ctl.pool = some p ∧ w'.ctl.pool = some p' ∧
      w.ctl.lsts[srcIdx]? = some src ∧ w.ctl.lsts[dstIdx]? = some dst ∧ srcIdx ≠ dstIdx ∧
      accs[10]? = some srcRes ∧ accs[11]? = some dstRes ∧
      FreshValues env w srcRes.key dstRes.key src dst rs rd ∧
      p.totalSolValue + rs + rd ≤ p'.totalSolValue + src.solValue + dst.solValue := by
  have hl := SwapAccs.load_all r.ver.load
  have hne : srcIdx ≠ dstIdx := by
    intro e
    have h1 := ((congrArg (w.ctl.lsts[·]?) e).symm.trans r.ver.srcSel.get).symm.trans r.ver.dstSel.get
    injection h1 with h1
    apply r.ver.mints_ne
    rw [← r.ver.srcSel.mint_eq, ← r.ver.dstSel.mint_eq, h1]
  have hsel := verifySwapCpis_sel r.ver.cpis r.ver.srcSel.get r.ver.dstSel.get
  obtain ⟨p1, hp1⟩ := r.sync0.pool'
  have e1 := r.sync0.total r.ver.pool hp1 r.ver.srcSel.get
  have hd : r.w1.ctl.lsts[dstIdx]? = some r.dst := by rw [r.sync0.other hne]; exact r.ver.dstSel.get
  have e2 := r.sync1.total hp1 r.pool2 hd
  have q0 := r.sync0.ask
  have q1 := r.sync1.ask
  rw [hsel.1.program] at q0
  rw [hsel.2.1.program] at q1
  have hno := r.fin.noLoss
  refine ⟨r.p, r.fin.p', r.src, r.dst, r.a.srcPoolReserves, r.a.dstPoolReserves, r.sr.min, r.dr.min, r.ver.pool, r.fin.pool',
    r.ver.srcSel.get, r.ver.dstSel.get, hne, ?_, ?_,
    ⟨⟨_, _, r.c.src.metas, r.c.dst.metas, _, _, _, _, r.sync0.tok, congrArg some (hsel.1.mint_eq.trans r.ver.srcSel.mint_eq.symm),
      congrArg some (hsel.2.1.mint_eq.trans r.ver.dstSel.mint_eq.symm), q0, r.sync1.tok, q1⟩⟩, by omega⟩
  · exact (congrArg (·[10]?) hl).trans rfl
  · exact (congrArg (·[11]?) hl).trans rfl

/-- C08 for swaps: the recorded total `p'.totalSolValue` afterwards is at least the recorded total after syncing the two LSTs
at the start, i.e. the total before with the two entries' recorded values replaced by fresh ones. The answers of calculators
and pricing program are arbitrary (`env` is), here and during the rest of the instruction. -/
theorem C08_swap {cfg : Cfg} {L : RatioLib} {env : Env cfg} {tx : TxInfo} {w w' : World} {accs : List Acc} {ix : Ix}
    {i j : Nat}
    (hix : (∃ a, ix = .swapExactIn a ∧ a.srcLstIndex = i ∧ a.dstLstIndex = j) ∨
      (∃ a, ix = .swapExactOut a ∧ a.srcLstIndex = i ∧ a.dstLstIndex = j))
    (h : processIx cfg L env tx w accs ix = .ok w') :
    ∃ p p' src dst srcRes dstRes rs rd, w.ctl.pool = some p ∧ w'.ctl.pool = some p' ∧
      w.ctl.lsts[i]? = some src ∧ w.ctl.lsts[j]? = some dst ∧ i ≠ j ∧
      accs[10]? = some srcRes ∧ accs[11]? = some dstRes ∧
      FreshValues env w srcRes.key dstRes.key src dst rs rd ∧
      p.totalSolValue + rs + rd ≤ p'.totalSolValue + src.solValue + dst.solValue := by
  rcases hix with ⟨a, rfl, rfl, rfl⟩ | ⟨a, rfl, rfl, rfl⟩
  · obtain ⟨_, ⟨r⟩⟩ := processSwapExactIn_inv h
    exact r.toSwapRun.noLoss
  · obtain ⟨_, ⟨r⟩⟩ := processSwapExactOut_inv h
    exact r.toSwapRun.noLoss

/-- C08 for deposits. -/
theorem C08_addLiquidity {cfg : Cfg} {L : RatioLib} {env : Env cfg} {tx : TxInfo} {w w' : World} {accs : List Acc}
    {args : AddLiquidityArgs} (h : processIx cfg L env tx w accs (.addLiquidity args) = .ok w') :
    ∃ p p' s res acc ms r l, w.ctl.pool = some p ∧ w'.ctl.pool = some p' ∧ w.ctl.lsts[args.lstIndex]? = some s ∧
      accs[10]? = some res ∧ w.led.tok res.key = some acc ∧ ms.head?.map Acc.key = some s.mint ∧
      env.askCalc 0 w s.solValueCalculator ms (.lstToSol acc.amount) = .ok (r, l) ∧
      p.totalSolValue + r.min ≤ p'.totalSolValue + s.solValue := by
  obtain ⟨r⟩ := processAddLiquidity_inv h
  have hl := LiqAccs.load_all r.ver.load
  have hsel := verifyLpCpis_sel r.ver.cpis r.ver.sel.get
  have e1 := r.sync0.total r.ver.pool r.pool1 r.ver.sel.get
  have q0 := r.sync0.ask
  rw [hsel.1.program] at q0
  have hno := r.noLoss
  exact ⟨r.p, r.p', r.s, r.a.poolReserves, _, r.c.lst.metas, _, _, r.ver.pool, r.pool', r.ver.sel.get,
    (congrArg (·[10]?) hl).trans rfl, r.sync0.tok, congrArg some (hsel.1.mint_eq.trans r.ver.sel.mint_eq.symm), q0, by omega⟩

-- In the example the totals recorded around the deposits and the two swaps.
example : (List.range 5).map (fun n => (Ex.st (n + 3)).ctl.pool.map (·.totalSolValue)) =
    [some 0, some 30000, some 60000, some 60027, some 60055] := by decide +kernel

-- A pricing program that quotes twice the input value is refused.
example : ((processIx Ex.cfg .ex (Env.pure Ex.cfg Ex.calcF (fun _ _ q => match q with
      | .exactIn _ v => .ok (2 * v)
      | _ => .ok 0)) ⟨[], 0⟩ (Ex.st 5) Ex.swapAB (.swapExactIn ⟨1, 1, 0, 1, 10, 3000⟩))).toOption.isNone = true := by
  decide +kernel

end S
