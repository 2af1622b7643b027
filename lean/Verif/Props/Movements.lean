import Verif.Props.Conservation
import Verif.Props.Value
/-
C04, C05, C06, C07: the token movements of swaps, deposits and redemptions, account by account, and C39: the LP supply.
Here the called programs only answer questions (`Env.Quiet`): the calculators and pricing programs of this repository change no
account.
-/
set_option autoImplicit false
namespace S

/-- Every token account keeps its program, mint and owner, and none is opened or closed. -/
def SameAccounts (l l' : Ledger) : Prop :=
  ∀ k, (l'.tok k).map (fun a => (a.program, a.mint, a.owner)) = (l.tok k).map (fun a => (a.program, a.mint, a.owner))

theorem SameAccounts.refl (l : Ledger) : SameAccounts l l := fun _ => rfl
theorem SameAccounts.trans {l l' l'' : Ledger} (h : SameAccounts l l') (h' : SameAccounts l' l'') : SameAccounts l l'' :=
  fun k => (h' k).trans (h k)

theorem transfer_same {l : Ledger} {t : TransferAccs} {n : Nat} {l' : Ledger} (h : transfer l t n = .ok l') :
    SameAccounts l l' := by
  obtain ⟨m, a, b, f⟩ := transfer_ok.1 h
  intro k
  rw [f.tok k]
  split
  · rfl
  · split
    · rename_i e; rw [e, f.dst]; rfl
    · split
      · rename_i e; rw [e, f.src]; rfl
      · rfl

theorem transfer_bal {l : Ledger} {t : TransferAccs} {n : Nat} {l' : Ledger} (h : transfer l t n = .ok l') (k : Pubkey) :
    bal l' k + only t.src n k = bal l k + only t.dst n k := by
  obtain ⟨mt, a, b, f⟩ := transfer_ok.1 h
  unfold bal
  rw [f.tok k]
  by_cases e : t.src = t.dst
  · rw [if_pos e, e]
  · rw [if_neg e]
    have := f.enough
    by_cases e1 : k = t.dst
    · rw [if_pos e1, e1, only_self, only_ne _ (fun x => e x.symm), f.dst]; rfl
    · rw [if_neg e1, only_ne _ e1]
      by_cases e2 : k = t.src
      · rw [if_pos e2, e2, only_self, f.src]; simp; omega
      · rw [if_neg e2, only_ne _ e2]

theorem transfer_mints {l : Ledger} {t : TransferAccs} {n : Nat} {l' : Ledger} (h : transfer l t n = .ok l') :
    l'.mints = l.mints := by
  obtain ⟨mt, a, b, f⟩ := transfer_ok.1 h
  exact f.mints

/-- The `n`-th question of the execution, asked to calculator program `prog` about mint `mint`, while token accounts were as in
`l`, was answered `r`. -/
def CalcAnswer {cfg : Cfg} (env : Env cfg) (n : Nat) (l : Ledger) (prog mint : Pubkey) (q : CalcReq) (r : Range) : Prop :=
  ∃ w ms, w.led = l ∧ ms.head?.map Acc.key = some mint ∧ env.askCalc n w prog ms q = .ok (r, l)

/-- The `n`-th question of the execution, asked to pricing program `prog` about `mints`, was answered `r`. -/
def PriceAnswer {cfg : Cfg} (env : Env cfg) (n : Nat) (l : Ledger) (prog : Pubkey) (mints : List Pubkey) (q : PriceReq)
    (r : Nat) : Prop :=
  ∃ w ms, w.led = l ∧ (ms.take mints.length).map Acc.key = mints ∧ env.askPrice n w prog ms q = .ok (r, l)

theorem CalcAnswer.mk {cfg : Cfg} {env : Env cfg} {n : Nat} {w : World} {prog mint : Pubkey} {q : CalcReq} {r : Range}
    {ms : List Acc} {l : Ledger} (h : env.askCalc n w prog ms q = .ok (r, l)) (hw : w.led = l)
    (hm : ms.head?.map Acc.key = some mint) : CalcAnswer env n l prog mint q r := ⟨w, ms, hw, hm, h⟩

/-- The protocol fee of a swap: its share of the SOL value charged, rounded up, converted to the output LST at the rate of the
swap, rounded down. (`outSol = 0` is left open: no calculator of this repository lets such a swap through.) -/
def SwapFee (inSol outSol out bps fee : Nat) : Prop :=
  outSol ≠ 0 → fee = cdiv ((inSol - outSol) * bps) 10000 * out / outSol

theorem bpsCeilFee_ok {bps amt : Nat} {a : AmtsAfterFee} (h : bpsCeilFeeApply bps amt = .ok a) :
    bps ≤ 10000 ∧ a.feeCharged = cdiv (amt * bps) 10000 ∧ a.feeCharged ≤ amt := by
  simp only [bpsCeilFeeApply, feeNew, ceilFeeApply, bind_ok, require_ok, exists_const, subU64_ok, pure_ok] at h
  obtain ⟨h1, _, ⟨rfl, h2⟩, rfl⟩ := h
  refine ⟨h1, ?_, h2⟩
  simp only [ceilFee]
  split
  · rename_i hz
    rcases hz with rfl | hz
    · simp [cdiv]
    · cases hz
  · rfl

theorem floorApply_ok {L : RatioLib} {n d x r : Nat} (h : floorApply L n d x = .ok r) (hd : d ≠ 0) :
    r = x * n / d ∧ r < U64 := by
  rw [floorApply, if_neg hd, toU64_ok] at h
  exact ⟨h.1, h.1 ▸ h.2⟩

theorem swapFee_ok {L : RatioLib} {i o d b f : Nat} (h : calcSwapProtocolFees L i o d b = .ok f) : SwapFee i o d b f := by
  intro ho
  simp only [calcSwapProtocolFees, bind_ok] at h
  obtain ⟨a, ha, hf⟩ := h
  obtain ⟨_, e, _⟩ := bpsCeilFee_ok ha
  rw [(floorApply_ok hf ho).1, e]

/-- The movements common to both swaps. -/
structure SwapMoves (cfg : Cfg) (w w' : World) (accs : List Acc) (srcIdx dstIdx srcIn dstOut fee : Nat) (p : PoolState)
    (src dst : LstState) (signer srcAcc dstAcc feeAcc srcRes dstRes : Acc) : Prop where
  pool : w.ctl.pool = some p
  srcEntry : w.ctl.lsts[srcIdx]? = some src
  dstEntry : w.ctl.lsts[dstIdx]? = some dst
  mintsNe : src.mint ≠ dst.mint
  pos0 : accs[0]? = some signer
  pos3 : accs[3]? = some srcAcc
  pos4 : accs[4]? = some dstAcc
  pos5 : accs[5]? = some feeAcc
  pos10 : accs[10]? = some srcRes
  pos11 : accs[11]? = some dstRes
  /-- the paying account belongs to the signer -/
  paidBySigner : signer.signer = true ∧ ∃ a, w.led.tok srcAcc.key = some a ∧ a.owner = signer.key ∧ a.mint = src.mint
  /-- the pool's accounts are the ones of the two LSTs -/
  reserves : ∃ ms md, w.led.mints src.mint = some ms ∧ w.led.mints dst.mint = some md ∧
    cfg.ata cfg.poolState ms.program src.mint src.poolReservesBump = some srcRes.key ∧
    cfg.ata cfg.poolState md.program dst.mint dst.poolReservesBump = some dstRes.key ∧
    cfg.ata cfg.protocolFee md.program dst.mint dst.protocolFeeAccumulatorBump = some feeAcc.key
  /-- the receiving account is of the destination mint -/
  received : ∃ a, w.led.tok dstAcc.key = some a ∧ a.mint = dst.mint
  /-- the complete change of balances -/
  moves : ∀ k, bal w'.led k + only srcAcc.key srcIn k + only dstRes.key (dstOut + fee) k =
    bal w.led k + only srcRes.key srcIn k + only dstAcc.key dstOut k + only feeAcc.key fee k
  mints : w'.led.mints = w.led.mints
  accounts : SameAccounts w.led w'.led

theorem SyncRun.quiet {cfg : Cfg} {env : Env cfg} (hq : env.Quiet) {n : Nat} {w : World} {res : Pubkey} {c : CalcCpi} {i : Nat}
    {w' : World} {acc : TokenAcc} {r : Range} (h : SyncRun env n w res c i w' acc r) : w'.led = w.led := hq.calcF h.ask

theorem SwapRun.moves {cfg : Cfg} {L : RatioLib} {env : Env cfg} {w : World} {accs : List Acc}
    {srcAccs dstAccs srcIdx dstIdx srcIn dstOut : Nat} {w' : World}
    (r : SwapRun L env w accs srcAccs dstAccs srcIdx dstIdx srcIn dstOut w') (hq : env.Quiet) (h5 : r.l5 = w.led) :
    SwapMoves cfg w w' accs srcIdx dstIdx srcIn dstOut r.fee r.p r.src r.dst r.a.signer r.a.srcLstAcc r.a.dstLstAcc
      r.a.protocolFeeAccumulator r.a.srcPoolReserves r.a.dstPoolReserves := by
  have hl := SwapAccs.load_all r.ver.load
  obtain ⟨ms, hms, hmsp⟩ := r.ver.srcSel.prog
  obtain ⟨md, hmd, hmdp⟩ := r.ver.dstSel.prog
  obtain ⟨m1, a1, b1, f1⟩ := transfer_ok.1 r.fin.t1
  obtain ⟨m3, a3, b3, f3⟩ := transfer_ok.1 r.fin.t3
  have el : w'.led = r.fin.l3 := (r.fin.sync6.quiet hq).trans (r.fin.sync5.quiet hq)
  have hb1 := transfer_bal r.fin.t1
  have hb2 := transfer_bal r.fin.t2
  have hb3 := transfer_bal r.fin.t3
  have sa2 := transfer_same r.fin.t2
  have sa3 := transfer_same r.fin.t3
  have sm2 := transfer_mints r.fin.t2
  have sm3 := transfer_mints r.fin.t3
  have sm1 : r.fin.l1.mints = w.led.mints := (transfer_mints r.fin.t1).trans (congrArg Ledger.mints h5)
  have sa1 : SameAccounts w.led r.fin.l1 := fun k => (transfer_same r.fin.t1 k).trans
    (congrArg (fun l : Ledger => (l.tok k).map (fun a => (a.program, a.mint, a.owner))) h5)
  have hrecv : ∃ a, w.led.tok r.a.dstLstAcc.key = some a ∧ a.mint = r.a.dstLstMint.key := by
    have s12 := (sa1.trans sa2) r.a.dstLstAcc.key
    have hd3 : r.fin.l2.tok r.a.dstLstAcc.key = some b3 := f3.dst
    rw [hd3] at s12
    cases ht : w.led.tok r.a.dstLstAcc.key with
    | none => rw [ht] at s12; cases s12
    | some a =>
      rw [ht] at s12
      simp only [Option.map_some, Option.some.injEq, Prod.mk.injEq] at s12
      exact ⟨a, rfl, s12.2.1.symm.trans f3.bmint⟩
  exact {
    pool := r.ver.pool
    srcEntry := r.ver.srcSel.get
    dstEntry := r.ver.dstSel.get
    mintsNe := by rw [r.ver.srcSel.mint_eq, r.ver.dstSel.mint_eq]; exact r.ver.mints_ne
    pos0 := (congrArg (·[0]?) hl).trans rfl
    pos3 := (congrArg (·[3]?) hl).trans rfl
    pos4 := (congrArg (·[4]?) hl).trans rfl
    pos5 := (congrArg (·[5]?) hl).trans rfl
    pos10 := (congrArg (·[10]?) hl).trans rfl
    pos11 := (congrArg (·[11]?) hl).trans rfl
    paidBySigner := ⟨r.ver.signer, a1, (congrArg (fun l : Ledger => l.tok r.a.srcLstAcc.key) h5).symm.trans f1.src, f1.owner,
      f1.amint.trans r.ver.srcSel.mint_eq.symm⟩
    reserves := ⟨ms, md, by rw [r.ver.srcSel.mint_eq]; exact hms, by rw [r.ver.dstSel.mint_eq]; exact hmd,
      by rw [hmsp]; exact r.ver.srcSel.res_eq, by rw [hmdp]; exact r.ver.dstSel.res_eq, by rw [hmdp]; exact r.ver.accum⟩
    received := by
      obtain ⟨a, h1, h2⟩ := hrecv
      exact ⟨a, h1, h2.trans r.ver.dstSel.mint_eq.symm⟩
    moves := by
      intro k
      have e1 := hb1 k
      have e2 := hb2 k
      have e3 := hb3 k
      have e0 : bal r.l5 k = bal w.led k := congrArg (bal · k) h5
      rw [el]
      have : only r.a.dstPoolReserves.key (dstOut + r.fee) k =
          only r.a.dstPoolReserves.key dstOut k + only r.a.dstPoolReserves.key r.fee k := by
        unfold only; split <;> rfl
      simp only at e1 e2 e3
      omega
    mints := by rw [el, sm3, sm2, sm1]
    accounts := by rw [el]; exact (sa1.trans sa2).trans sa3 }

/-- C04: a successful SwapExactIn takes exactly `amount` from the signer's source account into the source reserves and pays
exactly `out` to the destination account, where `out` is the minimum of SolToLst(PriceExactIn(LstToSol(amount).min)), at least
`minAmountOut` and not zero; the protocol fee goes from the destination reserves to the accumulator; every other balance, every
mint and every account is as before. -/
theorem C04_swapExactIn {cfg : Cfg} {L : RatioLib} {env : Env cfg} {tx : TxInfo} {w w' : World} {accs : List Acc}
    {args : SwapExactInArgs} (hq : env.Quiet) (h : processIx cfg L env tx w accs (.swapExactIn args) = .ok w') :
    ∃ out fee p src dst signer srcAcc dstAcc feeAcc srcRes dstRes inSol outSol rOut,
      SwapMoves cfg w w' accs args.srcLstIndex args.dstLstIndex args.amount out fee p src dst signer srcAcc dstAcc feeAcc
        srcRes dstRes ∧
      CalcAnswer env 2 w.led src.solValueCalculator src.mint (.lstToSol args.amount) inSol ∧
      PriceAnswer env 3 w.led p.pricingProgram [src.mint, dst.mint] (.exactIn args.amount inSol.min) outSol ∧
      CalcAnswer env 4 w.led dst.solValueCalculator dst.mint (.solToLst outSol) rOut ∧
      out = rOut.min ∧ args.minAmountOut ≤ out ∧ out ≠ 0 ∧ args.amount ≠ 0 ∧ inSol.min ≠ 0 ∧
      SwapFee inSol.min outSol out p.tradingProtocolFeeBps fee := by
  obtain ⟨out, ⟨r⟩⟩ := processSwapExactIn_inv h
  have h2 : r.w2.led = w.led := (r.sync1.quiet hq).trans (r.sync0.quiet hq)
  have h3 : r.l3 = w.led := (hq.calcF r.ask2).trans h2
  have h4 : r.l4 = w.led := (hq.priceF r.ask3).trans h3
  have h5 : r.l5 = w.led := (hq.calcF r.ask4).trans h4
  have hsel := verifySwapCpis_sel r.ver.cpis r.ver.srcSel.get r.ver.dstSel.get
  have a2 := r.ask2
  have a3 := r.ask3
  have a4 := r.ask4
  have hf := swapFee_ok r.hfee
  rw [hsel.1.program] at a2
  rw [hsel.2.2.1] at a3
  rw [hsel.2.1.program] at a4
  rw [h3] at a2
  rw [h4] at a3
  rw [h5] at a4
  rw [r.inSol_eq] at a3 hf
  have hbps : r.p2.tradingProtocolFeeBps = r.p.tradingProtocolFeeBps := by
    obtain ⟨p0, s0, f0⟩ := ctlSync_ok.1 r.sync0.sync
    obtain ⟨p1, s1, f1⟩ := ctlSync_ok.1 r.sync1.sync
    have e0 := f0.pool; rw [r.ver.pool] at e0; injection e0 with e0; subst e0
    have e1 := f1.pool; rw [congrArg Ctl.pool f0.eq] at e1; injection e1 with e1; subst e1
    have e2 := r.pool2; rw [congrArg Ctl.pool f1.eq] at e2; injection e2 with e2; rw [← e2]
  rw [hbps] at hf
  refine ⟨out, r.fee, r.p, r.src, r.dst, _, _, _, _, _, _, r.rIn, r.outSol, r.rOut, r.toSwapRun.moves hq h5,
    CalcAnswer.mk a2 h2 (congrArg some (hsel.1.mint_eq.trans r.ver.srcSel.mint_eq.symm)), ⟨_, _, h3, ?_, a3⟩,
    CalcAnswer.mk a4 h4 (congrArg some (hsel.2.1.mint_eq.trans r.ver.dstSel.mint_eq.symm)), r.out_eq, r.minOut, r.out_ne, r.nonzero,
    r.inSol_eq ▸ r.inSol_ne, hf⟩
  simp [PriceCpi.metas, hsel.2.2.2, r.ver.srcSel.mint_eq, r.ver.dstSel.mint_eq]

-- A concrete run: 3000 of LST 21 in, 1980 of LST 22 out, 2 to the fee accumulator. Balances of 41, 42, Ex.resA, Ex.resB, Ex.feeB before and after.
example : [41, 42, Ex.resA, Ex.resB, Ex.feeB].map (bal (Ex.st 5).led) = [970000, 980000, 30000, 20000, 0] ∧
    (processIx Ex.cfg .ex Ex.env ⟨[], 0⟩ (Ex.st 5) Ex.swapAB (.swapExactIn ⟨1, 1, 0, 1, 10, 3000⟩)).toOption.map
      (fun w => [41, 42, Ex.resA, Ex.resB, Ex.feeB].map (bal w.led)) = some [967000, 981980, 33000, 18018, 2] := by decide +kernel

/-- C05: the same for SwapExactOut: the user gets exactly `amount` and pays exactly the maximum of
SolToLst(PriceExactOut(LstToSol(amount).max)), which is at most `maxAmountIn` and not zero. -/
theorem C05_swapExactOut {cfg : Cfg} {L : RatioLib} {env : Env cfg} {tx : TxInfo} {w w' : World} {accs : List Acc}
    {args : SwapExactOutArgs} (hq : env.Quiet) (h : processIx cfg L env tx w accs (.swapExactOut args) = .ok w') :
    ∃ srcIn fee p src dst signer srcAcc dstAcc feeAcc srcRes dstRes outSol inSol rIn,
      SwapMoves cfg w w' accs args.srcLstIndex args.dstLstIndex srcIn args.amount fee p src dst signer srcAcc dstAcc feeAcc
        srcRes dstRes ∧
      CalcAnswer env 2 w.led dst.solValueCalculator dst.mint (.lstToSol args.amount) outSol ∧
      PriceAnswer env 3 w.led p.pricingProgram [src.mint, dst.mint] (.exactOut args.amount outSol.max) inSol ∧
      CalcAnswer env 4 w.led src.solValueCalculator src.mint (.solToLst inSol) rIn ∧
      srcIn = rIn.max ∧ srcIn ≤ args.maxAmountIn ∧ srcIn ≠ 0 ∧ args.amount ≠ 0 ∧ outSol.max ≠ 0 ∧
      SwapFee inSol outSol.max args.amount p.tradingProtocolFeeBps fee := by
  obtain ⟨srcIn, ⟨r⟩⟩ := processSwapExactOut_inv h
  have h2 : r.w2.led = w.led := (r.sync1.quiet hq).trans (r.sync0.quiet hq)
  have h3 : r.l3 = w.led := (hq.calcF r.ask2).trans h2
  have h4 : r.l4 = w.led := (hq.priceF r.ask3).trans h3
  have h5 : r.l5 = w.led := (hq.calcF r.ask4).trans h4
  have hsel := verifySwapCpis_sel r.ver.cpis r.ver.srcSel.get r.ver.dstSel.get
  have a2 := r.ask2
  have a3 := r.ask3
  have a4 := r.ask4
  have hf := swapFee_ok r.hfee
  rw [hsel.2.1.program] at a2
  rw [hsel.2.2.1] at a3
  rw [hsel.1.program] at a4
  rw [h3] at a2
  rw [h4] at a3
  rw [h5] at a4
  rw [r.outSol_eq] at a3 hf
  have hbps : r.p2.tradingProtocolFeeBps = r.p.tradingProtocolFeeBps := by
    obtain ⟨p0, s0, f0⟩ := ctlSync_ok.1 r.sync0.sync
    obtain ⟨p1, s1, f1⟩ := ctlSync_ok.1 r.sync1.sync
    have e0 := f0.pool; rw [r.ver.pool] at e0; injection e0 with e0; subst e0
    have e1 := f1.pool; rw [congrArg Ctl.pool f0.eq] at e1; injection e1 with e1; subst e1
    have e2 := r.pool2; rw [congrArg Ctl.pool f1.eq] at e2; injection e2 with e2; rw [← e2]
  rw [hbps] at hf
  refine ⟨srcIn, r.fee, r.p, r.src, r.dst, _, _, _, _, _, _, r.rOut, r.inSol, r.rIn, r.toSwapRun.moves hq h5,
    CalcAnswer.mk a2 h2 (congrArg some (hsel.2.1.mint_eq.trans r.ver.dstSel.mint_eq.symm)), ⟨_, _, h3, ?_, a3⟩,
    CalcAnswer.mk a4 h4 (congrArg some (hsel.1.mint_eq.trans r.ver.srcSel.mint_eq.symm)), r.in_eq, r.maxIn, r.in_ne, r.nonzero,
    r.outSol_eq ▸ r.outSol_ne, hf⟩
  simp [PriceCpi.metas, hsel.2.2.2, r.ver.srcSel.mint_eq, r.ver.dstSel.mint_eq]


-- A concrete run: 2000 of LST 22 out for 3031 of LST 21. Balances of 41, 42, Ex.resA, Ex.resB, Ex.feeB before and after.
example : [41, 42, Ex.resA, Ex.resB, Ex.feeB].map (bal (Ex.st 6).led) = [967000, 981980, 33000, 18018, 2] ∧
    (processIx Ex.cfg .ex Ex.env ⟨[], 0⟩ (Ex.st 6) Ex.swapAB (.swapExactOut ⟨1, 1, 0, 1, 5000, 2000⟩)).toOption.map
      (fun w => [41, 42, Ex.resA, Ex.resB, Ex.feeB].map (bal w.led)) = some [963969, 983980, 36031, 16016, 4] := by decide +kernel

/-! ### Liquidity -/

/-- LP tokens minted for `v` lamports of value, given the LP supply and the pool's total value before the deposit. -/
def LpMinted (supply total v lp : Nat) : Prop :=
  (supply = 0 → lp = total + v) ∧ (supply ≠ 0 → total = 0 → lp = v) ∧ (supply ≠ 0 → total ≠ 0 → lp = v * supply / total)

/-- Value of `lp` LP tokens. -/
def LpValue (supply total lp v : Nat) : Prop :=
  (supply = 0 ∨ total = 0 → v = 0) ∧ (supply ≠ 0 → total ≠ 0 → v = lp * total / supply)

theorem lpMinted_ok {L : RatioLib} {s t v lp : Nat} (h : calcLpTokensToMint L ⟨s, t⟩ v = .ok lp) : LpMinted s t v lp := by
  simp only [calcLpTokensToMint] at h
  split at h
  · rename_i e; rw [addU64_ok] at h; exact ⟨fun _ => h.1, fun x => absurd e x, fun x => absurd e x⟩
  · rename_i e
    split at h
    · rename_i e'; rw [pure_ok] at h; exact ⟨fun x => absurd x e, fun _ _ => h.symm, fun _ x => absurd e' x⟩
    · rename_i e'
      exact ⟨fun x => absurd x e, fun _ x => absurd x e', fun _ _ => (floorApply_ok h e').1⟩

theorem lpValue_ok {L : RatioLib} {s t v lp : Nat} (h : calcLpTokensSolValue L ⟨s, t⟩ lp = .ok v) : LpValue s t lp v := by
  simp only [calcLpTokensSolValue] at h
  split at h
  · rename_i e; rw [pure_ok] at h
    exact ⟨fun _ => h.symm, fun x y => by rcases e with e | e; exact absurd e y; exact absurd e x⟩
  · rename_i e
    have hs : s ≠ 0 := fun x => e (.inr x)
    have ht : t ≠ 0 := fun x => e (.inl x)
    exact ⟨fun x => by rcases x with x | x; exact absurd x hs; exact absurd x ht, fun _ _ => (floorApply_ok h hs).1⟩

/-- The protocol fee of a deposit: the protocol's share of the value charged, rounded up, converted to the LST at the rate of
the deposit, rounded down. -/
def DepositFee (amount v vAfter bps fee : Nat) : Prop :=
  v ≠ 0 → fee = cdiv ((v - vAfter) * bps) 10000 * amount / v

/-- The protocol fee of a redemption, likewise. (`vAfter = 0` is left open: no LST is paid then by any calculator here.) -/
def RedeemFee (v vAfter out bps fee : Nat) : Prop :=
  vAfter ≠ 0 → fee = cdiv ((v - vAfter) * bps) 10000 * out / vAfter

theorem depositFee_ok {L : RatioLib} {a v u b : Nat} {f : AddLiquidityFees}
    (h : calcAddLiquidityProtocolFees L a v u b = .ok f) :
    f.toReserves + f.toProtocolFees = a ∧ DepositFee a v u b f.toProtocolFees := by
  simp only [calcAddLiquidityProtocolFees, bind_ok, subU64_ok, pure_ok] at h
  obtain ⟨x, hx, y, hy, z, ⟨rfl, hz⟩, rfl⟩ := h
  obtain ⟨_, e, _⟩ := bpsCeilFee_ok hx
  refine ⟨Nat.sub_add_cancel hz, fun hv => ?_⟩
  show y = _
  rw [(floorApply_ok hy hv).1, e]

theorem redeemFee_ok {L : RatioLib} {v u o b f : Nat} (h : calcRemoveLiquidityProtocolFees L v u o b = .ok f) :
    RedeemFee v u o b f := by
  intro hu
  simp only [calcRemoveLiquidityProtocolFees, bind_ok] at h
  obtain ⟨a, ha, hf⟩ := h
  obtain ⟨_, e, _⟩ := bpsCeilFee_ok ha
  rw [(floorApply_ok hf hu).1, e]

/-- What both liquidity instructions establish about the accounts passed: accounts 0, 2, 3, 4, 5 and 10 of the instruction are
the signing user, the user's LST and LP token accounts, the pool's LP mint, and the fee accumulator and reserves of the LST at
the index given. -/
structure LiqParties (cfg : Cfg) (w : World) (accs : List Acc) (i : Nat) (p : PoolState) (s : LstState)
    (signer userLst userLp feeAcc res : Acc) : Prop where
  pool : w.ctl.pool = some p
  entry : w.ctl.lsts[i]? = some s
  pos0 : accs[0]? = some signer
  pos2 : accs[2]? = some userLst
  pos3 : accs[3]? = some userLp
  pos5 : accs[5]? = some feeAcc
  pos10 : accs[10]? = some res
  signed : signer.signer = true
  derived : ∃ m, w.led.mints s.mint = some m ∧
    cfg.ata cfg.poolState m.program s.mint s.poolReservesBump = some res.key ∧
    cfg.ata cfg.protocolFee m.program s.mint s.protocolFeeAccumulatorBump = some feeAcc.key

theorem LiqVerified.parties {cfg : Cfg} {w : World} {accs : List Acc} {n i : Nat} {b : Bool} {a : LiqAccs} {suf : List Acc}
    {c : LpCpis} {p : PoolState} {s : LstState} {tp : Pubkey} (v : LiqVerified cfg w accs n i b a suf c p s tp) :
    LiqParties cfg w accs i p s a.signer a.userLst a.userLp a.protocolFeeAccumulator a.poolReserves := by
  have hl := LiqAccs.load_all v.load
  obtain ⟨m, hm, hmp⟩ := v.sel.prog
  exact {
    pool := v.pool
    entry := v.sel.get
    pos0 := (congrArg (·[0]?) hl).trans rfl
    pos2 := (congrArg (·[2]?) hl).trans rfl
    pos3 := (congrArg (·[3]?) hl).trans rfl
    pos5 := (congrArg (·[5]?) hl).trans rfl
    pos10 := (congrArg (·[10]?) hl).trans rfl
    signed := v.signer
    derived := ⟨m, by rw [v.sel.mint_eq]; exact hm, by rw [hmp]; exact v.sel.res_eq, by rw [hmp]; exact v.accum⟩ }

theorem mintTo_bal {l : Ledger} {mint dst tp auth : Pubkey} {n : Nat} {l' : Ledger} (h : mintTo l mint dst tp auth n = .ok l')
    (k : Pubkey) : bal l' k = bal l k + only dst n k := by
  obtain ⟨m, b, f⟩ := mintTo_ok.1 h
  rw [f.eq]
  unfold bal only
  simp only [setMint_tok, setTok_tok, upd]
  by_cases e : k = dst
  · rw [if_pos e, if_pos e, e, f.hdst]; rfl
  · rw [if_neg e, if_neg e]; rfl

theorem mintTo_same {l : Ledger} {mint dst tp auth : Pubkey} {n : Nat} {l' : Ledger} (h : mintTo l mint dst tp auth n = .ok l') :
    SameAccounts l l' := by
  obtain ⟨m, b, f⟩ := mintTo_ok.1 h
  intro k
  rw [f.eq]
  simp only [setMint_tok, setTok_tok, upd]
  by_cases e : k = dst
  · rw [if_pos e, e, f.hdst]; rfl
  · rw [if_neg e]

theorem burn_bal {l : Ledger} {mint src tp auth : Pubkey} {n : Nat} {l' : Ledger} (h : burn l mint src tp auth n = .ok l')
    (k : Pubkey) : bal l' k + only src n k = bal l k := by
  obtain ⟨m, b, f⟩ := burn_ok.1 h
  rw [f.eq]
  unfold bal only
  simp only [setMint_tok, setTok_tok, upd]
  have := f.enough
  by_cases e : k = src
  · rw [if_pos e, if_pos e, e, f.hsrc]; simp; omega
  · rw [if_neg e, if_neg e]; rfl

theorem burn_same {l : Ledger} {mint src tp auth : Pubkey} {n : Nat} {l' : Ledger} (h : burn l mint src tp auth n = .ok l') :
    SameAccounts l l' := by
  obtain ⟨m, b, f⟩ := burn_ok.1 h
  intro k
  rw [f.eq]
  simp only [setMint_tok, setTok_tok, upd]
  by_cases e : k = src
  · rw [if_pos e, e, f.hsrc]; rfl
  · rw [if_neg e]

/-- What the controller's accounts hold afterwards: the entry at `i` carries the value its calculator gives, as the last question
of the execution, for the final balance of the reserves, the total has moved by as much, and nothing else has changed. -/
def EndsSynced {cfg : Cfg} (env : Env cfg) (w w' : World) (i : Nat) (p : PoolState) (s : LstState) (res : Pubkey) : Prop :=
  ∃ r t, CalcAnswer env 3 w'.led s.solValueCalculator s.mint (.lstToSol (bal w'.led res)) r ∧
    t + s.solValue = p.totalSolValue + r.min ∧
    w'.ctl = { w.ctl with pool := some { p with totalSolValue := t }, lsts := w.ctl.lsts.set i { s with solValue := r.min } }

theorem sync_twice {c c1 c2 : Ctl} {i a b : Nat} {p : PoolState} {s : LstState} (h1 : c.sync i a = .ok c1)
    (h2 : c1.sync i b = .ok c2) (hp : c.pool = some p) (hs : c.lsts[i]? = some s) :
    ∃ t, t + s.solValue = p.totalSolValue + b ∧
      c2 = { c with pool := some { p with totalSolValue := t }, lsts := c.lsts.set i { s with solValue := b } } := by
  obtain ⟨p0, s0, f0⟩ := ctlSync_ok.1 h1
  obtain ⟨p1, s1, f1⟩ := ctlSync_ok.1 h2
  have e0 := f0.pool; rw [hp] at e0; injection e0 with e0; subst e0
  have e1 := f0.lst; rw [hs] at e1; injection e1 with e1; subst e1
  have hlt : i < c.lsts.length := by
    rw [List.getElem?_eq_some_iff] at hs; exact hs.1
  have e2 := f1.pool; rw [f0.eq] at e2; injection e2 with e2; subst e2
  have e3 := f1.lst; rw [f0.eq] at e3; simp only [List.getElem?_set_self hlt] at e3; injection e3 with e3; subst e3
  have l0 := f0.le
  have l1 := f1.le
  simp only at l1
  refine ⟨p.totalSolValue - s.solValue + a - a + b, by omega, ?_⟩
  rw [f1.eq, f0.eq]; simp only [List.set_set]

/-- C06: a successful AddLiquidity takes exactly `lstAmount` from the signer's LST account, `toRes` of it into the reserves and
`toFee` of it into the fee accumulator, and mints to the LP account passed exactly the LP tokens the LP rate before the
deposit (pool value with this LST revalued) gives for the value the pricing program leaves; at least `minLpOut` and not zero.
No other balance, mint or account changes. -/
theorem C06_addLiquidity {cfg : Cfg} {L : RatioLib} {env : Env cfg} {tx : TxInfo} {w w' : World} {accs : List Acc}
    {args : AddLiquidityArgs} (hq : env.Quiet) (h : processIx cfg L env tx w accs (.addLiquidity args) = .ok w') :
    ∃ p s signer userLst userLp feeAcc res m r0 v vAfter total toRes toFee lp,
      LiqParties cfg w accs args.lstIndex p s signer userLst userLp feeAcc res ∧
      w.led.mints p.lpTokenMint = some m ∧
      (∃ a, w.led.tok userLst.key = some a ∧ a.owner = signer.key ∧ a.mint = s.mint) ∧
      (∃ a, w.led.tok userLp.key = some a ∧ a.mint = p.lpTokenMint) ∧
      CalcAnswer env 0 w.led s.solValueCalculator s.mint (.lstToSol (bal w.led res.key)) r0 ∧
      total + s.solValue = p.totalSolValue + r0.min ∧
      CalcAnswer env 1 w.led s.solValueCalculator s.mint (.lstToSol args.lstAmount) v ∧
      PriceAnswer env 2 w.led p.pricingProgram [s.mint] (.lpTokensToMint args.lstAmount v.min) vAfter ∧
      vAfter ≤ v.min ∧
      LpMinted m.supply total vAfter lp ∧ lp ≠ 0 ∧ args.minLpOut ≤ lp ∧
      DepositFee args.lstAmount v.min vAfter p.lpProtocolFeeBps toFee ∧ toRes + toFee = args.lstAmount ∧ toRes ≠ 0 ∧
      (∀ k, bal w'.led k + only userLst.key args.lstAmount k =
        bal w.led k + only res.key toRes k + only feeAcc.key toFee k + only userLp.key lp k) ∧
      w'.led.mints = upd w.led.mints p.lpTokenMint (some { m with supply := m.supply + lp }) ∧
      SameAccounts w.led w'.led ∧ EndsSynced env w w' args.lstIndex p s res.key := by
  obtain ⟨r⟩ := processAddLiquidity_inv h
  have h1 : r.w1.led = w.led := r.sync0.quiet hq
  have h2 : r.l2 = w.led := (hq.calcF r.ask1).trans h1
  have h3 : r.l3 = w.led := (hq.priceF r.ask2).trans h2
  have el : w'.led = r.l6 := r.sync3.quiet hq
  have hsel := verifyLpCpis_sel r.ver.cpis r.ver.sel.get
  have a0 := r.sync0.ask
  have a1 := r.ask1
  have a2 := r.ask2
  rw [hsel.1.program] at a0 a1
  rw [hsel.2.1] at a2
  rw [h2] at a1
  rw [h3] at a2
  have hb0 := bal_some r.sync0.tok
  rw [← hb0, h1] at a0
  have htot := r.sync0.total r.ver.pool r.pool1 r.ver.sel.get
  have hp1 : r.p1.lpProtocolFeeBps = r.p.lpProtocolFeeBps := by
    obtain ⟨p0, s0, f0⟩ := ctlSync_ok.1 r.sync0.sync
    have e0 := f0.pool; rw [r.ver.pool] at e0; injection e0 with e0; subst e0
    have e2 := r.pool1; rw [congrArg Ctl.pool f0.eq] at e2; injection e2 with e2; rw [← e2]
  obtain ⟨hsum, hfee⟩ := depositFee_ok r.hfees
  rw [hp1] at hfee
  have hm : w.led.mints r.p.lpTokenMint = some r.lpMint := by
    have := r.hlpMint; rw [r.ver.lpMint, h3] at this; exact this
  obtain ⟨m1, x1, y1, f1⟩ := transfer_ok.1 r.t1
  obtain ⟨m3, y3, f3⟩ := mintTo_ok.1 r.t3
  have hmint := lpMinted_ok r.hlp
  have e1 : r.l3.tok r.a.userLst.key = some x1 := f1.src
  have sm1 : r.l4.mints = w.led.mints := (transfer_mints r.t1).trans (congrArg Ledger.mints h3)
  have sm2 := (transfer_mints r.t2).trans sm1
  have sa1 : SameAccounts w.led r.l4 := fun k => (transfer_same r.t1 k).trans
    (congrArg (fun l : Ledger => (l.tok k).map (fun a => (a.program, a.mint, a.owner))) h3)
  have sa2 := sa1.trans (transfer_same r.t2)
  have sa3 := sa2.trans (mintTo_same r.t3)
  have hlpAcc : ∃ a, w.led.tok r.a.userLp.key = some a ∧ a.mint = r.p.lpTokenMint := by
    have s12 := sa2 r.a.userLp.key
    rw [f3.hdst] at s12
    cases ht : w.led.tok r.a.userLp.key with
    | none => rw [ht] at s12; cases s12
    | some a =>
      rw [ht] at s12
      simp only [Option.map_some, Option.some.injEq, Prod.mk.injEq] at s12
      exact ⟨a, rfl, (s12.2.1.symm.trans f3.bmint).trans r.ver.lpMint⟩
  have hm5 : r.l5.mints r.a.lpTokenMint.key = some r.lpMint := by
    rw [sm2, r.ver.lpMint]; exact hm
  have em : m3 = r.lpMint := by have := f3.hmint.symm.trans hm5; injection this
  refine ⟨r.p, r.s, r.a.signer, r.a.userLst, r.a.userLp, r.a.protocolFeeAccumulator, r.a.poolReserves, r.lpMint, r.r0, r.v,
    r.vAfter, r.p1.totalSolValue, r.fees.toReserves, r.fees.toProtocolFees, r.lp, r.ver.parties, hm,
    ⟨x1, (congrArg (fun l : Ledger => l.tok r.a.userLst.key) h3).symm.trans e1, f1.owner, f1.amint.trans r.ver.sel.mint_eq.symm⟩,
    hlpAcc, CalcAnswer.mk a0 rfl (congrArg some (hsel.1.mint_eq.trans r.ver.sel.mint_eq.symm)), htot,
    CalcAnswer.mk a1 h1 (congrArg some (hsel.1.mint_eq.trans r.ver.sel.mint_eq.symm)), ⟨_, _, h2, ?_, a2⟩, r.vAfter_le,
    hmint, r.lp_ne, r.minLp, hfee, hsum, r.toReserves_ne, ?_, ?_, ?_, ?_⟩
  · simp [PriceCpi.metas, hsel.2.2, r.ver.sel.mint_eq]
  · intro k
    have b1 := transfer_bal r.t1 k
    have b2 := transfer_bal r.t2 k
    have b3 := mintTo_bal r.t3 k
    have b0 : bal r.l3 k = bal w.led k := congrArg (bal · k) h3
    rw [el]
    have : only r.a.userLst.key args.lstAmount k =
        only r.a.userLst.key r.fees.toReserves k + only r.a.userLst.key r.fees.toProtocolFees k := by
      rw [← hsum]; unfold only; split <;> rfl
    simp only at b1 b2 b3
    omega
  · rw [el, f3.eq, em, r.ver.lpMint]
    show upd r.l5.mints _ _ = _
    rw [sm2]
  · rw [el]; exact sa3
  · obtain ⟨t, ht, hc⟩ := sync_twice r.sync0.sync r.sync3.sync r.ver.pool r.ver.sel.get
    have a3 := r.sync3.ask
    rw [hsel.1.program] at a3
    have hb3 : bal w'.led r.a.poolReserves.key = r.acc3.amount := by
      rw [el]; exact bal_some r.sync3.tok
    rw [← hb3] at a3
    exact ⟨r.r3, t, CalcAnswer.mk a3 el.symm (congrArg some (hsel.1.mint_eq.trans r.ver.sel.mint_eq.symm)), ht, hc⟩

-- A concrete run: a deposit of 20000 of LST 22, worth 30000 SOL, mints 30000 LP tokens. Balances of 42, 43, Ex.resB, Ex.feeB before and after.
example : [42, 43, Ex.resB, Ex.feeB].map (bal (Ex.st 4).led) = [1000000, 30000, 0, 0] ∧
    (processIx Ex.cfg .ex Ex.env ⟨[], 0⟩ (Ex.st 4) Ex.liqB (.addLiquidity ⟨1, 1, 20000, 1⟩)).toOption.map
      (fun w => [42, 43, Ex.resB, Ex.feeB].map (bal w.led)) = some [980000, 60000, 20000, 0] := by decide +kernel

/-- C07: a successful RemoveLiquidity burns exactly `lpTokenAmount` from the signer's LP account and pays from the reserves
exactly SolToLst(PriceLpTokensToRedeem(LP value)).min to the LST account passed, at least `minLstOut` and not zero, and the
protocol fee to the accumulator. No other balance, mint or account changes. -/
theorem C07_removeLiquidity {cfg : Cfg} {L : RatioLib} {env : Env cfg} {tx : TxInfo} {w w' : World} {accs : List Acc}
    {args : RemoveLiquidityArgs} (hq : env.Quiet) (h : processIx cfg L env tx w accs (.removeLiquidity args) = .ok w') :
    ∃ p s signer userLst userLp feeAcc res m r0 total v vAfter out fee,
      LiqParties cfg w accs args.lstIndex p s signer userLst userLp feeAcc res ∧
      w.led.mints p.lpTokenMint = some m ∧
      (∃ a, w.led.tok userLp.key = some a ∧ a.owner = signer.key ∧ a.mint = p.lpTokenMint) ∧
      (∃ a, w.led.tok userLst.key = some a ∧ a.mint = s.mint) ∧
      CalcAnswer env 0 w.led s.solValueCalculator s.mint (.lstToSol (bal w.led res.key)) r0 ∧
      total + s.solValue = p.totalSolValue + r0.min ∧
      LpValue m.supply total args.lpTokenAmount v ∧
      PriceAnswer env 1 w.led p.pricingProgram [s.mint] (.lpTokensToRedeem args.lpTokenAmount v) vAfter ∧
      vAfter ≤ v ∧
      CalcAnswer env 2 w.led s.solValueCalculator s.mint (.solToLst vAfter) out ∧
      out.min ≠ 0 ∧ args.minLstOut ≤ out.min ∧ args.lpTokenAmount ≠ 0 ∧
      RedeemFee v vAfter out.min p.lpProtocolFeeBps fee ∧
      (∀ k, bal w'.led k + only userLp.key args.lpTokenAmount k + only res.key (out.min + fee) k =
        bal w.led k + only userLst.key out.min k + only feeAcc.key fee k) ∧
      args.lpTokenAmount ≤ m.supply ∧
      w'.led.mints = upd w.led.mints p.lpTokenMint (some { m with supply := m.supply - args.lpTokenAmount }) ∧
      SameAccounts w.led w'.led ∧ EndsSynced env w w' args.lstIndex p s res.key := by
  obtain ⟨r⟩ := processRemoveLiquidity_inv h
  have h1 : r.w1.led = w.led := r.sync0.quiet hq
  have h2 : r.l2 = w.led := (hq.priceF r.ask1).trans h1
  have h3 : r.l3 = w.led := (hq.calcF r.ask2).trans h2
  have el : w'.led = r.l6 := r.sync3.quiet hq
  have hsel := verifyLpCpis_sel r.ver.cpis r.ver.sel.get
  have a0 := r.sync0.ask
  have a1 := r.ask1
  have a2 := r.ask2
  rw [hsel.1.program] at a0 a2
  rw [hsel.2.1] at a1
  rw [h2] at a1
  rw [h3] at a2
  have hb0 := bal_some r.sync0.tok
  rw [← hb0, h1] at a0
  have htot := r.sync0.total r.ver.pool r.pool1 r.ver.sel.get
  have hp1 : r.p1.lpProtocolFeeBps = r.p.lpProtocolFeeBps := by
    obtain ⟨p0, s0, f0⟩ := ctlSync_ok.1 r.sync0.sync
    have e0 := f0.pool; rw [r.ver.pool] at e0; injection e0 with e0; subst e0
    have e2 := r.pool1; rw [congrArg Ctl.pool f0.eq] at e2; injection e2 with e2; rw [← e2]
  have hfee := redeemFee_ok r.hfee
  rw [hp1] at hfee
  have hm : w.led.mints r.p.lpTokenMint = some r.lpMint := by
    have := r.hlpMint; rw [r.ver.lpMint, h1] at this; exact this
  obtain ⟨m1, x1, f1⟩ := burn_ok.1 r.t1
  obtain ⟨m2, x2, y2, f2⟩ := transfer_ok.1 r.t2
  have hval := lpValue_ok r.hv
  have em : m1 = r.lpMint := by
    have := f1.hmint; rw [r.ver.lpMint, h3] at this; rw [hm] at this; injection this with this; exact this.symm
  have sa1 : SameAccounts w.led r.l4 := fun k => (burn_same r.t1 k).trans
    (congrArg (fun l : Ledger => (l.tok k).map (fun a => (a.program, a.mint, a.owner))) h3)
  have sa2 := sa1.trans (transfer_same r.t2)
  have sa3 := sa2.trans (transfer_same r.t3)
  have hlst : ∃ a, w.led.tok r.a.userLst.key = some a ∧ a.mint = r.s.mint := by
    have s12 := sa1 r.a.userLst.key
    have hd : r.l4.tok r.a.userLst.key = some y2 := f2.dst
    rw [hd] at s12
    cases ht : w.led.tok r.a.userLst.key with
    | none => rw [ht] at s12; cases s12
    | some a =>
      rw [ht] at s12
      simp only [Option.map_some, Option.some.injEq, Prod.mk.injEq] at s12
      exact ⟨a, rfl, (s12.2.1.symm.trans f2.bmint).trans r.ver.sel.mint_eq.symm⟩
  refine ⟨r.p, r.s, r.a.signer, r.a.userLst, r.a.userLp, r.a.protocolFeeAccumulator, r.a.poolReserves, r.lpMint, r.r0,
    r.p1.totalSolValue, r.v, r.vAfter, r.out, r.fee, r.ver.parties, hm,
    ⟨x1, (congrArg (fun l : Ledger => l.tok r.a.userLp.key) h3).symm.trans f1.hsrc, f1.owner, f1.amint.trans r.ver.lpMint⟩,
    hlst, CalcAnswer.mk a0 rfl (congrArg some (hsel.1.mint_eq.trans r.ver.sel.mint_eq.symm)), htot, hval,
    ⟨_, _, h1, ?_, a1⟩, r.vAfter_le,
    CalcAnswer.mk a2 h2 (congrArg some (hsel.1.mint_eq.trans r.ver.sel.mint_eq.symm)), r.out_ne, r.minOut, r.nonzero, hfee,
    ?_, em ▸ f1.senough, ?_, ?_, ?_⟩
  · simp [PriceCpi.metas, hsel.2.2, r.ver.sel.mint_eq]
  · intro k
    have b1 := burn_bal r.t1 k
    have b2 := transfer_bal r.t2 k
    have b3 := transfer_bal r.t3 k
    have b0 : bal r.l3 k = bal w.led k := congrArg (bal · k) h3
    rw [el]
    have : only r.a.poolReserves.key (r.out.min + r.fee) k =
        only r.a.poolReserves.key r.out.min k + only r.a.poolReserves.key r.fee k := by
      unfold only; split <;> rfl
    simp only at b1 b2 b3
    omega
  · rw [el, transfer_mints r.t3, transfer_mints r.t2, f1.eq, em, r.ver.lpMint]
    show upd r.l3.mints _ _ = _
    rw [h3]
  · rw [el]; exact sa3
  · obtain ⟨t, ht, hc⟩ := sync_twice r.sync0.sync r.sync3.sync r.ver.pool r.ver.sel.get
    have a3 := r.sync3.ask
    rw [hsel.1.program] at a3
    have hb3 : bal w'.led r.a.poolReserves.key = r.acc3.amount := by
      rw [el]; exact bal_some r.sync3.tok
    rw [← hb3] at a3
    exact ⟨r.r3, t, CalcAnswer.mk a3 el.symm (congrArg some (hsel.1.mint_eq.trans r.ver.sel.mint_eq.symm)), ht, hc⟩

-- A concrete run: 10000 LP tokens redeemed for 9908 of LST 21, 11 to the fee accumulator. Balances of 41, 43, Ex.resA, Ex.feeA before and after.
example : [41, 43, Ex.resA, Ex.feeA].map (bal (Ex.st 7).led) = [963969, 60000, 36031, 0] ∧
    (processIx Ex.cfg .ex Ex.env ⟨[], 0⟩ (Ex.st 7) Ex.liqA (.removeLiquidity ⟨1, 0, 10000, 1⟩)).toOption.map
      (fun w => [41, 43, Ex.resA, Ex.feeA].map (bal w.led)) = some [973877, 50000, 26112, 11] := by decide +kernel

end S
