import Verif.Props.RebalanceMoves
import Verif.Props.System
/-
C91: the protocol fee accumulators as ledgers. Over every history, what an accumulator holds plus what the beneficiary took out
of it is what it held before, plus the protocol fee of every trade that happened, plus what others sent to it.
-/
set_option autoImplicit false
namespace S

/-! ### Specification -/

/-- The protocol fee the instruction `ix`, executed in `w`, charges: the protocol's share of the value charged by the pricing
program, at the rates of the trade. Instructions other than the four trades charge none. -/
def TradeFee {cfg : Cfg} (env : Env cfg) (w : World) : Ix → Nat → Prop
  | .swapExactIn args, fee => ∃ p src dst inSol outSol out, w.ctl.pool = some p ∧
      w.ctl.lsts[args.srcLstIndex]? = some src ∧ w.ctl.lsts[args.dstLstIndex]? = some dst ∧
      CalcAnswer env 2 w.led src.solValueCalculator src.mint (.lstToSol args.amount) inSol ∧
      PriceAnswer env 3 w.led p.pricingProgram [src.mint, dst.mint] (.exactIn args.amount inSol.min) outSol ∧
      CalcAnswer env 4 w.led dst.solValueCalculator dst.mint (.solToLst outSol) out ∧
      SwapFee inSol.min outSol out.min p.tradingProtocolFeeBps fee
  | .swapExactOut args, fee => ∃ p src dst outSol inSol, w.ctl.pool = some p ∧
      w.ctl.lsts[args.srcLstIndex]? = some src ∧ w.ctl.lsts[args.dstLstIndex]? = some dst ∧
      CalcAnswer env 2 w.led dst.solValueCalculator dst.mint (.lstToSol args.amount) outSol ∧
      PriceAnswer env 3 w.led p.pricingProgram [src.mint, dst.mint] (.exactOut args.amount outSol.max) inSol ∧
      SwapFee inSol outSol.max args.amount p.tradingProtocolFeeBps fee
  | .addLiquidity args, fee => ∃ p s v vAfter, w.ctl.pool = some p ∧ w.ctl.lsts[args.lstIndex]? = some s ∧
      CalcAnswer env 1 w.led s.solValueCalculator s.mint (.lstToSol args.lstAmount) v ∧
      PriceAnswer env 2 w.led p.pricingProgram [s.mint] (.lpTokensToMint args.lstAmount v.min) vAfter ∧
      DepositFee args.lstAmount v.min vAfter p.lpProtocolFeeBps fee
  | .removeLiquidity args, fee => ∃ p s m res r0 total v vAfter out, w.ctl.pool = some p ∧
      w.ctl.lsts[args.lstIndex]? = some s ∧ w.led.mints p.lpTokenMint = some m ∧ ReservesOf cfg w s res ∧
      CalcAnswer env 0 w.led s.solValueCalculator s.mint (.lstToSol (bal w.led res)) r0 ∧
      total + s.solValue = p.totalSolValue + r0.min ∧ LpValue m.supply total args.lpTokenAmount v ∧
      PriceAnswer env 1 w.led p.pricingProgram [s.mint] (.lpTokensToRedeem args.lpTokenAmount v) vAfter ∧
      CalcAnswer env 2 w.led s.solValueCalculator s.mint (.solToLst vAfter) out ∧
      RedeemFee v vAfter out.min p.lpProtocolFeeBps fee
  | _, fee => fee = 0

/-- `k` is the account at position `i`. -/
def At (accs : List Acc) (i : Nat) (k : Pubkey) : Prop := accs[i]?.map Acc.key = some k

instance (accs : List Acc) (i : Nat) (k : Pubkey) : Decidable (At accs i k) := by unfold At; infer_instance

/-- What the beneficiary asked for, if `k` is the accumulator it is taken from. -/
def Ix.takes (accs : List Acc) (k : Pubkey) : Ix → Nat
  | .withdrawProtocolFees n => if At accs 2 k then n else 0
  | _ => 0

/-- The instruction names `k` as the account that receives what a trader gets, what is taken for rebalancing, or withdrawn fees. -/
def Ix.Pays (accs : List Acc) (k : Pubkey) : Ix → Prop
  | .swapExactIn _ | .swapExactOut _ => At accs 4 k
  | .addLiquidity _ => At accs 3 k
  | .removeLiquidity _ => At accs 2 k
  | .startRebalance _ => At accs 8 k
  | .withdrawProtocolFees _ => At accs 1 k
  | _ => False

/-- The line event `e` adds to the books of accumulator `k`: the protocol fee charged (position 5 of a trade is the accumulator
it is paid to), what the beneficiary took, and what others sent: something only if the action is one of another program or names
`k` as a receiving account. -/
structure FeeEntry where
  fee : Nat
  taken : Nat
  sent : Nat

def Event.Books {cfg : Cfg} (e : Event cfg) (k : Pubkey) (b : FeeEntry) : Prop :=
  match e.act with
  | .ext _ _ => b.fee = 0 ∧ b.taken = 0
  | .call c => ∃ ix, decodeIx c.data = .ok ix ∧
      (if At c.accs 5 k then TradeFee c.env e.pre ix b.fee else b.fee = 0) ∧ b.taken = ix.takes c.accs k ∧
      (b.sent ≠ 0 → ix.Pays c.accs k)

/-- The programs called during the event only answer questions. -/
def Event.Quiet {cfg : Cfg} (e : Event cfg) : Prop := ∀ c, e.act = .call c → c.env.Quiet

/-! ### Proof -/

theorem At.of {accs : List Acc} {i : Nat} {a : Acc} (h : accs[i]? = some a) (k : Pubkey) : At accs i k ↔ k = a.key := by
  unfold At; rw [h]; simp [eq_comm]

theorem only_at {accs : List Acc} {i : Nat} {a : Acc} (h : accs[i]? = some a) (n : Nat) (k : Pubkey) :
    only a.key n k = if At accs i k then n else 0 := by
  unfold only; simp only [At.of h]

theorem LedOp.RunE.bal {cfg : Cfg} {l l' : Ledger} {op : LedOp} (h : op.RunE cfg (fun l l' => l' = l) l l')
    (ht : (∀ t n, op ≠ .transfer t n) ∧ (∀ m d tp au n, op ≠ .mintTo m d tp au n) ∧ ∀ m d tp au n, op ≠ .burn m d tp au n)
    (k : Pubkey) : S.bal l' k = S.bal l k := by
  cases op with
  | ext => rw [show l' = l from h]
  | transfer t n => exact absurd rfl (ht.1 t n)
  | mintTo m d tp au n => exact absurd rfl (ht.2.1 m d tp au n)
  | burn m d tp au n => exact absurd rfl (ht.2.2 m d tp au n)
  | close kk tp au =>
    obtain ⟨b, hb, _, _, h0, rfl⟩ := closeToken_ok.1 h
    unfold S.bal
    by_cases e : k = kk
    · subst e; simp [hb, h0]
    · simp [upd_ne _ _ e]
  | setMintAuth mt tp au nw => obtain ⟨m0, hm, _, hau, rfl⟩ := setMintAuth_ok.1 h; rfl
  | setFreezeAuth mt tp au nw => obtain ⟨m0, hm, _, hau, rfl⟩ := setFreezeAuth_ok.1 h; rfl
  | createAta kk wa tp mt =>
    obtain ⟨rfl, hnone, _, rfl⟩ := createAta_ok.1 h
    unfold S.bal
    by_cases e : k = (cfg.findAta wa tp mt).1
    · rw [e, hnone]; simp
    · simp [upd_ne _ _ e]

theorem TraceE.bal {cfg : Cfg} {l l' : Ledger} {ops : List LedOp} (h : TraceE cfg (fun l l' => l' = l) l ops l')
    (ht : ∀ op ∈ ops, (∀ t n, op ≠ .transfer t n) ∧ (∀ m d tp au n, op ≠ .mintTo m d tp au n) ∧
      ∀ m d tp au n, op ≠ .burn m d tp au n) (k : Pubkey) : S.bal l' k = S.bal l k := by
  induction h with
  | nil => rfl
  | cons h _ ih =>
    rw [List.forall_mem_cons] at ht
    exact (ih ht.2).trans (LedOp.RunE.bal h ht.1 k)

theorem Inv.feeAcc_ne {cfg : Cfg} {w : World} (hi : Inv cfg w) {s : LstState} (hs : s ∈ w.ctl.lsts) {m : Mint} {res : Pubkey}
    (hm : w.led.mints s.mint = some m) (hr : cfg.ata cfg.poolState m.program s.mint s.poolReservesBump = some res)
    {k : Pubkey} {a : TokenAcc} (hk : w.led.tok k = some a) (ho : a.owner = cfg.protocolFee) : k ≠ res := by
  obtain ⟨m', r, acc, ra, fa, l⟩ := hi.accs s hs
  obtain rfl : m = m' := Option.some.inj (hm.symm.trans l.mint)
  obtain rfl : res = r := Option.some.inj (hr.symm.trans l.res_key)
  rintro rfl
  obtain rfl : a = ra := Option.some.inj (hk.symm.trans l.res)
  exact cfg.pool_ne_fee (l.ra_owner.symm.trans ho)

theorem signer_ne {cfg : Cfg} {w : World} {accs : List Acc} (hs : signersOk cfg accs) {i : Nat} {sg : Acc}
    (hp : accs[i]? = some sg) (hsg : sg.signer = true) {j k : Pubkey} {b a : TokenAcc} (hj : w.led.tok j = some b)
    (hb : b.owner = sg.key) (hk : w.led.tok k = some a) (ho : a.owner = cfg.protocolFee) : k ≠ j := by
  rintro rfl
  obtain rfl : a = b := Option.some.inj (hk.symm.trans hj)
  exact (hs sg (List.mem_of_getElem? hp) hsg).2 (hb.symm.trans ho)

/-- Instructions that may move tokens. -/
def Ix.Moves : Ix → Prop
  | .swapExactIn _ | .swapExactOut _ | .addLiquidity _ | .removeLiquidity _ | .startRebalance _ | .withdrawProtocolFees _ => True
  | _ => False

/-- The other instructions change no balance. -/
theorem rest_bal {cfg : Cfg} {L : RatioLib} {env : Env cfg} {tx : TxInfo} {w w' : World} {accs : List Acc} {ix : Ix}
    (hq : env.Quiet) (h : processIx cfg L env tx w accs ix = .ok w') (hm : ¬ ix.Moves) (k : Pubkey) :
    bal w'.led k = bal w.led k := by
  cases ix with
  | syncSolValue i => obtain ⟨r⟩ := processSync_inv h; rw [r.run.quiet hq]
  | swapExactIn args => exact (hm trivial).elim
  | swapExactOut args => exact (hm trivial).elim
  | addLiquidity args => exact (hm trivial).elim
  | removeLiquidity args => exact (hm trivial).elim
  | startRebalance args => exact (hm trivial).elim
  | withdrawProtocolFees n => exact (hm trivial).elim
  | disableLstInput i => obtain ⟨a, s, p, _, _, _, _, _, _, _, _, rfl⟩ := processSetLstInput_inv (flag := 1) h; rfl
  | enableLstInput i => obtain ⟨a, s, p, _, _, _, _, _, _, _, _, rfl⟩ := processSetLstInput_inv (flag := 0) h; rfl
  | addLst =>
    obtain ⟨r⟩ := processAddLst_inv h
    obtain ⟨o1, t1, h1⟩ := createAtaIfNotExist_trace (E := fun l l' => l' = l) r.c1
    obtain ⟨o2, t2, h2⟩ := createAtaIfNotExist_trace (E := fun l l' => l' = l) r.c2
    rw [r.eq]
    refine (t1.append t2).bal (fun op hop => ?_) k
    rcases List.mem_append.1 hop with hop | hop
    · rw [h1 op hop]; simp
    · rw [h2 op hop]; simp
  | removeLst i =>
    obtain ⟨r⟩ := processRemoveLst_inv h
    have el : w'.led = r.l2 := congrArg World.led r.eq
    rw [el]
    exact (LedOp.RunE.bal (cfg := cfg) (op := .close _ _ _) r.c2 (by simp) k).trans
      (LedOp.RunE.bal (cfg := cfg) (op := .close _ _ _) r.c1 (by simp) k)
  | setSolValueCalculator i => obtain ⟨r⟩ := processSetSolValueCalculator_inv h; exact congrArg (fun l => bal l k) (r.run.quiet hq)
  | setAdmin => obtain ⟨a, p, _, _, _, _, rfl⟩ := processSetAdmin_inv h; rfl
  | setProtocolFee args => obtain ⟨a, p, _, _, _, _, _, _, _, _, rfl⟩ := processSetProtocolFee_inv h; rfl
  | setProtocolFeeBeneficiary => obtain ⟨a, p, _, _, _, _, _, _, rfl⟩ := processSetBeneficiary_inv h; rfl
  | setPricingProgram => obtain ⟨a, p, _, _, _, _, _, _, _, rfl⟩ := processSetPricing_inv h; rfl
  | addDisablePoolAuthority => obtain ⟨a, p, _, _, _, _, _, rfl⟩ := processAddAuth_inv h; rfl
  | removeDisablePoolAuthority i => obtain ⟨a, p, _, _, _, _, _, rfl⟩ := processRemoveAuth_inv h; rfl
  | disablePool => obtain ⟨a, p, _, _, _, _, _, _, rfl⟩ := processDisablePool_inv h; rfl
  | enablePool => obtain ⟨a, p, _, _, _, _, _, rfl⟩ := processEnablePool_inv h; rfl
  | endRebalance => obtain ⟨p, rr, dst, auth, dstRes, r, t, _, _, _, _, _, _, _, _, _, el, _⟩ := C69_endRebalance hq h; rw [el]
  | setRebalanceAuthority => obtain ⟨a, p, _, _, _, _, _, _, rfl⟩ := processSetRebAuth_inv h; rfl
  | «initialize» =>
    obtain ⟨r⟩ := processInitialize_inv h
    have el : w'.led = _ := congrArg World.led r.eq
    rw [el]
    exact (LedOp.RunE.bal (cfg := cfg) (op := .setFreezeAuth _ _ _ _) r.s2 (by simp) k).trans
      (LedOp.RunE.bal (cfg := cfg) (op := .setMintAuth _ _ _ _) r.s1 (by simp) k)

/-- One call of the controller. -/
theorem feeEntry_ix {cfg : Cfg} {L : RatioLib} {env : Env cfg} {tx : TxInfo} {w w' : World} {accs : List Acc} {ix : Ix}
    (hi : Inv cfg w) (hq : env.Quiet) (hs : signersOk cfg accs) (h : processIx cfg L env tx w accs ix = .ok w') {k : Pubkey}
    {a : TokenAcc} (hk : w.led.tok k = some a) (ho : a.owner = cfg.protocolFee) :
    ∃ b : FeeEntry, (if At accs 5 k then TradeFee env w ix b.fee else b.fee = 0) ∧ b.taken = ix.takes accs k ∧
      (b.sent ≠ 0 → ix.Pays accs k) ∧ bal w'.led k + b.taken = bal w.led k + b.fee + b.sent := by
  have swap : ∀ {i j n out fee p src dst signer srcAcc dstAcc feeAcc srcRes dstRes},
      SwapMoves cfg w w' accs i j n out fee p src dst signer srcAcc dstAcc feeAcc srcRes dstRes →
      bal w'.led k = bal w.led k + (if At accs 5 k then fee else 0) + (if At accs 4 k then out else 0) := by
    intro i j n out fee p src dst signer srcAcc dstAcc feeAcc srcRes dstRes m
    obtain ⟨ms, md, h1, h2, h3, h4, _⟩ := m.reserves
    obtain ⟨hsg, b, hb, hbo, _⟩ := m.paidBySigner
    have hm := m.moves k
    rw [only_ne _ (signer_ne hs m.pos0 hsg hb hbo hk ho), only_ne _ (hi.feeAcc_ne (List.mem_of_getElem? m.dstEntry) h2 h4 hk ho),
      only_ne _ (hi.feeAcc_ne (List.mem_of_getElem? m.srcEntry) h1 h3 hk ho), only_at m.pos4, only_at m.pos5] at hm
    omega
  have other : ¬ ix.Moves → ∃ b : FeeEntry, (if At accs 5 k then TradeFee env w ix b.fee else b.fee = 0) ∧ b.taken = ix.takes accs k ∧
      (b.sent ≠ 0 → ix.Pays accs k) ∧ bal w'.led k + b.taken = bal w.led k + b.fee + b.sent := by
    intro hm
    refine ⟨⟨0, 0, 0⟩, ?_, ?_, fun h => absurd rfl h, rest_bal hq h hm k⟩
    · split
      · cases ix <;> first | rfl | exact (hm trivial).elim
      · rfl
    · cases ix <;> first | rfl | exact (hm trivial).elim
  cases ix with
  | swapExactIn args =>
    obtain ⟨out, fee, p, src, dst, signer, srcAcc, dstAcc, feeAcc, srcRes, dstRes, inSol, outSol, rOut, m, q1, q2, q3, rfl, _, _, _, _, hf⟩ :=
      C04_swapExactIn hq h
    refine ⟨⟨if At accs 5 k then fee else 0, 0, if At accs 4 k then rOut.min else 0⟩, ?_, rfl, fun hne => ?_, swap m⟩
    · split
      · exact ⟨p, src, dst, inSol, outSol, rOut, m.pool, m.srcEntry, m.dstEntry, q1, q2, q3, hf⟩
      · rfl
    · by_contra hc; exact hne (if_neg hc)
  | swapExactOut args =>
    obtain ⟨srcIn, fee, p, src, dst, signer, srcAcc, dstAcc, feeAcc, srcRes, dstRes, outSol, inSol, rIn, m, q1, q2, q3, rfl, _, _, _, _, hf⟩ :=
      C05_swapExactOut hq h
    refine ⟨⟨if At accs 5 k then fee else 0, 0, if At accs 4 k then args.amount else 0⟩, ?_, rfl, fun hne => ?_, swap m⟩
    · split
      · exact ⟨p, src, dst, outSol, inSol, m.pool, m.srcEntry, m.dstEntry, q1, q2, hf⟩
      · rfl
    · by_contra hc; exact hne (if_neg hc)
  | addLiquidity args =>
    obtain ⟨p, s, signer, userLst, userLp, feeAcc, res, m, r0, v, vAfter, total, toRes, toFee, lp, pt, _, ⟨b, hb, hbo, _⟩, _, _, _, q1, q2, _, _, _, _,
      hf, _, _, mv, _⟩ := C06_addLiquidity hq h
    obtain ⟨mm, h1, h2, _⟩ := pt.derived
    have hm := mv k
    rw [only_ne _ (signer_ne hs pt.pos0 pt.signed hb hbo hk ho), only_ne _ (hi.feeAcc_ne (List.mem_of_getElem? pt.entry) h1 h2 hk ho),
      only_at pt.pos5, only_at pt.pos3] at hm
    refine ⟨⟨if At accs 5 k then toFee else 0, 0, if At accs 3 k then lp else 0⟩, ?_, rfl, fun hne => ?_, hm⟩
    · split
      · exact ⟨p, s, v, vAfter, pt.pool, pt.entry, q1, q2, hf⟩
      · rfl
    · by_contra hc; exact hne (if_neg hc)
  | removeLiquidity args =>
    obtain ⟨p, s, signer, userLst, userLp, feeAcc, res, m, r0, total, v, vAfter, out, fee, pt, hlp, ⟨b, hb, hbo, _⟩, _, q0, ht, hv, q1, _, q2, _, _, _,
      hf, mv, _⟩ := C07_removeLiquidity hq h
    obtain ⟨mm, h1, h2, _⟩ := pt.derived
    have hm := mv k
    rw [only_ne _ (signer_ne hs pt.pos0 pt.signed hb hbo hk ho), only_ne _ (hi.feeAcc_ne (List.mem_of_getElem? pt.entry) h1 h2 hk ho),
      only_at pt.pos5, only_at pt.pos2] at hm
    refine ⟨⟨if At accs 5 k then fee else 0, 0, if At accs 2 k then out.min else 0⟩, ?_, rfl, fun hne => ?_, by dsimp only; omega⟩
    · split
      · exact ⟨p, s, m, res.key, r0, total, v, vAfter, out, pt.pool, pt.entry, hlp, ⟨mm, h1, h2⟩, q0, ht, hv, q1, q2, hf⟩
      · rfl
    · by_contra hc; exact hne (if_neg hc)
  | startRebalance args =>
    obtain ⟨p, src, dst, auth, srcRes, dstRes, dest, r0, r1, r2, T, t, pt, _, _, mv, _⟩ := C69_startRebalance hq h
    obtain ⟨mm, h1, h2⟩ := pt.srcReserves
    have hm := mv k
    rw [only_ne _ (hi.feeAcc_ne (List.mem_of_getElem? pt.srcEntry) h1 h2 hk ho), only_at pt.pos8] at hm
    refine ⟨⟨0, 0, if At accs 8 k then args.amount else 0⟩, by split <;> rfl, rfl, fun hne => ?_, hm⟩
    by_contra hc; exact hne (if_neg hc)
  | withdrawProtocolFees n =>
    obtain ⟨p, signer, dest, feeAcc, t, _, _, _, _, p1, p2, _, _, _, _, _, mv, _⟩ := C69_withdrawProtocolFees h
    have hm := mv k
    rw [only_at p1, only_at p2] at hm
    refine ⟨⟨0, if At accs 2 k then n else 0, if At accs 1 k then n else 0⟩, by split <;> rfl, rfl, fun hne => ?_, hm⟩
    by_contra hc; exact hne (if_neg hc)
  | _ => exact other (fun h => h)

theorem feeEntry_event {cfg : Cfg} {L : RatioLib} {e : Event cfg} (hi : Inv cfg e.pre) (hq : e.Quiet)
    (hr : e.act.run L e.tx e.pre = .ok e.post) {k : Pubkey} {a : TokenAcc} (hk : e.pre.led.tok k = some a)
    (ho : a.owner = cfg.protocolFee) :
    ∃ b : FeeEntry, e.Books k b ∧ bal e.post.led k + b.taken = bal e.pre.led k + b.fee + b.sent := by
  cases ha : e.act with
  | ext f ok =>
    rw [ha] at hr
    simp only [Action.run, Except.ok.injEq] at hr
    obtain ⟨n, hle, hn⟩ := (ok e.pre.led).tok k a hk (.inr ho)
    have el : e.post.led = f e.pre.led := by rw [← hr]
    refine ⟨⟨0, 0, n - a.amount⟩, ?_, ?_⟩
    · unfold Event.Books; rw [ha]; exact ⟨rfl, rfl⟩
    · rw [el, bal_some hn, bal_some hk]; dsimp only; omega
  | call c =>
    rw [ha] at hr
    obtain ⟨hsig, ix, hdec, hix⟩ := Call.run_ok hr
    obtain ⟨b, h1, h2, h3, h4⟩ := feeEntry_ix hi (hq _ ha) hsig hix hk ho
    exact ⟨b, by unfold Event.Books; rw [ha]; exact ⟨ix, hdec, h1, h2, h3⟩, h4⟩

/-- An account of the fee authority stays one as long as it is open. -/
theorem feeHeld_event {cfg : Cfg} {L : RatioLib} {e : Event cfg} (hr : e.act.run L e.tx e.pre = .ok e.post) {k : Pubkey}
    {a : TokenAcc} (hk : e.pre.led.tok k = some a) (ho : a.owner = cfg.protocolFee) (hopen : e.post.led.tok k ≠ none) :
    ∃ b, e.post.led.tok k = some b ∧ b.owner = cfg.protocolFee := by
  rcases Action.run_ok hr with ⟨_, hx⟩ | ⟨c, ix, _, hsig, _, hix⟩
  · obtain ⟨n, _, hn⟩ := hx.tok k a hk (.inr ho)
    exact ⟨_, hn, ho⟩
  · rcases ctrl_account_ix hsig hix hk (.inr ho) with ⟨n, hn, _⟩ | ⟨hn, _⟩
    · exact ⟨_, hn, ho⟩
    · exact absurd hn hopen

theorem feeEntries {cfg : Cfg} {L : RatioLib} {k : Pubkey} {w w' : World} {es : List (Event cfg)} (hc : Chain w es w')
    (hr : ∀ e ∈ es, e.act.run L e.tx e.pre = .ok e.post) (hi : Inv cfg w) (hq : ∀ e ∈ es, e.Quiet)
    (ho : ∃ a, w.led.tok k = some a ∧ a.owner = cfg.protocolFee) (hopen : ∀ e ∈ es, e.post.led.tok k ≠ none) :
    ∃ bs : List FeeEntry, List.Forall₂ (fun e b => Event.Books e k b) es bs ∧
      bal w'.led k + (bs.map FeeEntry.taken).sum = bal w.led k + (bs.map FeeEntry.fee).sum + (bs.map FeeEntry.sent).sum := by
  induction hc with
  | nil => exact ⟨[], .nil, by simp⟩
  | cons _ ih =>
    rw [List.forall_mem_cons] at hr hq hopen
    obtain ⟨a, hk, ho⟩ := ho
    obtain ⟨b, hb, e1⟩ := feeEntry_event hi hq.1 hr.1 hk ho
    obtain ⟨bs, hbs, e2⟩ := ih hr.2 (hi.action hr.1) hq.2 (feeHeld_event hr.1 hk ho hopen.1) hopen.2
    refine ⟨b :: bs, .cons hb hbs, ?_⟩
    simp only [List.map_cons, List.sum_cons]
    omega

/-- C91: take an account of the fee authority that is not closed during a history. What it holds in the end and what the
beneficiary took from it make up what it held at first, the protocol fees of all the trades that happened, computed from the
answers each of them got, and what others sent to it. -/
theorem C91_fee_ledger {cfg : Cfg} {L : RatioLib} {w : World} (hw : Reachable cfg L w) (h : List (Tx cfg))
    (hq : ∀ e ∈ historyEvents L w h, e.Quiet) {k : Pubkey} {a : TokenAcc} (hk : w.led.tok k = some a)
    (ho : a.owner = cfg.protocolFee) (hopen : ∀ e ∈ historyEvents L w h, e.post.led.tok k ≠ none) :
    ∃ bs : List FeeEntry, List.Forall₂ (fun e b => Event.Books e k b) (historyEvents L w h) bs ∧
      bal (runHistory L w h).led k + (bs.map FeeEntry.taken).sum =
        bal w.led k + (bs.map FeeEntry.fee).sum + (bs.map FeeEntry.sent).sum :=
  feeEntries (historyEvents_chain L w h).1 (historyEvents_chain L w h).2 hw.inv hq ⟨a, hk, ho⟩ hopen

/-- C91: and if nobody else sends anything to it, the accumulator holds exactly the protocol fees not yet taken. -/
theorem C91_exact {cfg : Cfg} {L : RatioLib} {w : World} (hw : Reachable cfg L w) (h : List (Tx cfg))
    (hq : ∀ e ∈ historyEvents L w h, e.Quiet) {k : Pubkey} {a : TokenAcc} (hk : w.led.tok k = some a)
    (ho : a.owner = cfg.protocolFee) (hopen : ∀ e ∈ historyEvents L w h, e.post.led.tok k ≠ none)
    (hn : ∀ e ∈ historyEvents L w h, (∃ c, e.act = .call c) ∧ ∀ accs ix, e.IsIx accs ix → ¬ ix.Pays accs k) :
    ∃ bs : List FeeEntry, List.Forall₂ (fun e b => Event.Books e k b ∧ b.sent = 0) (historyEvents L w h) bs ∧
      bal (runHistory L w h).led k + (bs.map FeeEntry.taken).sum = bal w.led k + (bs.map FeeEntry.fee).sum := by
  obtain ⟨bs, hbs, e⟩ := C91_fee_ledger hw h hq hk ho hopen
  have hz : ∀ es : List (Event cfg), ∀ bs : List FeeEntry, (∀ e ∈ es, (∃ c, e.act = .call c) ∧ ∀ accs ix, e.IsIx accs ix → ¬ ix.Pays accs k) →
      List.Forall₂ (fun e b => Event.Books e k b) es bs →
      List.Forall₂ (fun e b => Event.Books e k b ∧ b.sent = 0) es bs ∧ (bs.map FeeEntry.sent).sum = 0 := by
    intro es bs hn hf
    induction hf with
    | nil => exact ⟨.nil, rfl⟩
    | @cons e b es bs hb _ ih =>
      rw [List.forall_mem_cons] at hn
      obtain ⟨i1, i2⟩ := ih hn.2
      have h0 : b.sent = 0 := by
        obtain ⟨⟨c, hc⟩, hp⟩ := hn.1
        have hb' := hb
        unfold Event.Books at hb'; rw [hc] at hb'
        obtain ⟨ix, hd, _, _, hs⟩ := hb'
        by_contra hne
        exact hp c.accs ix ⟨c, hc, rfl, hd⟩ (hs hne)
      exact ⟨.cons ⟨hb, h0⟩ i1, by rw [List.map_cons, List.sum_cons, h0, i2]⟩
  obtain ⟨z1, z2⟩ := hz _ _ hn hbs
  exact ⟨bs, z1, by rw [e, z2]; rfl⟩

/-- C91 in the deployed system (the controller with the pricing and calculator programs of this repository), for every history of
its transactions. -/
theorem C91_system {sc : SysCfg} {L : RatioLib} {s₀ : Sys sc} (hf : s₀.Fresh) (h₀ h : List (SysTx sc))
    (hq : ∀ e ∈ systemEvents L (runSystem L s₀ h₀) h, ∀ o accs data, e.act = .controller o accs data → o.other.Quiet)
    {k : Pubkey} {a : TokenAcc} (hk : (runSystem L s₀ h₀).world.led.tok k = some a) (ho : a.owner = sc.cfg.protocolFee)
    (hopen : ∀ e ∈ systemEvents L (runSystem L s₀ h₀) h, e.post.world.led.tok k ≠ none) :
    ∃ bs : List FeeEntry, List.Forall₂ (fun e b => Event.Books (SysEvent.ctl L e) k b) (systemEvents L (runSystem L s₀ h₀) h) bs ∧
      bal (runSystem L (runSystem L s₀ h₀) h).world.led k + (bs.map FeeEntry.taken).sum =
        bal (runSystem L s₀ h₀).world.led k + (bs.map FeeEntry.fee).sum + (bs.map FeeEntry.sent).sum := by
  obtain ⟨e1, e2⟩ := ctlHistory_run (L := L) (runSystem L s₀ h₀) h
  have := C91_fee_ledger (C65_reachable hf h₀) (ctlHistory L (runSystem L s₀ h₀) h) (by
    rw [e2]
    intro e he c hc
    obtain ⟨x, hx, rfl⟩ := List.mem_map.1 he
    cases hact : x.act with
    | controller o accs data =>
      simp only [SysEvent.ctl, hact, SysAction.ctl, Action.call.injEq] at hc
      rw [← hc]; exact Sys.quiet _ (hq x hx o accs data hact)
    | _ => simp only [SysEvent.ctl, hact, SysAction.ctl] at hc; cases hc) hk ho (by
    rw [e2]
    intro e he
    obtain ⟨x, hx, rfl⟩ := List.mem_map.1 he
    exact hopen x hx)
  rw [e1, e2] at this
  obtain ⟨bs, h1, h2⟩ := this
  exact ⟨bs, List.forall₂_map_left_iff.1 h1, h2⟩

namespace Ex

/-- Deposits, swaps, a redemption and a withdrawal by a new beneficiary, from the state in which both LSTs are listed. -/
def feeHist : List (Tx cfg) := [tDepA, tDepB, tSwapIn, tSwapOut, tRedeem, tSetBeneficiary, tWithdraw]

theorem fee_acts : ∀ t ∈ feeHist, ∀ s ∈ t, ∀ a ∈ s.actions, ∃ c : Call cfg, a = .call c ∧ c.env = env := by
  simp [feeHist, tDepA, tDepB, tSwapIn, tSwapOut, tRedeem, tSetBeneficiary, tWithdraw, call, Step.actions]

theorem fee_call {e : Event cfg} (he : e ∈ historyEvents .ex (st 3) feeHist) : ∃ c : Call cfg, e.act = .call c ∧ c.env = env := by
  obtain ⟨t, ht, s, hs, ha⟩ := historyEvents_act he
  exact fee_acts t ht s hs _ ha

/-- Does the committed action name `k` as a receiving account? -/
def pays (k : Pubkey) (e : Event cfg) : Bool :=
  match e.act with
  | .ext _ _ => true
  | .call c => match decodeIx c.data with
    | .ok (.swapExactIn _) | .ok (.swapExactOut _) => decide (At c.accs 4 k)
    | .ok (.addLiquidity _) => decide (At c.accs 3 k)
    | .ok (.removeLiquidity _) => decide (At c.accs 2 k)
    | .ok (.startRebalance _) => decide (At c.accs 8 k)
    | .ok (.withdrawProtocolFees _) => decide (At c.accs 1 k)
    | _ => false

theorem pays_not {k : Pubkey} {e : Event cfg} (h : pays k e = false) (accs : List Acc) (ix : Ix) (hi : e.IsIx accs ix) : ¬ ix.Pays accs k := by
  obtain ⟨c, hc, rfl, hd⟩ := hi
  unfold pays at h
  rw [hc] at h
  simp only [hd] at h
  cases ix <;> simp_all [Ix.Pays]

theorem fee_start : (st 3).led.tok feeB = some ⟨8, 22, 5, 0⟩ := by decide +kernel
theorem fee_facts : ((historyEvents .ex (st 3) feeHist).all fun e => (e.post.led.tok feeB).isSome && !pays feeB e) = true ∧
    (historyEvents .ex (st 3) feeHist).length = 7 ∧
    (historyEvents .ex (st 3) feeHist).map (fun e => bal e.post.led feeB) = [0, 0, 2, 4, 4, 4, 2] := by decide +kernel

/-- Both theorems apply: the accumulator of mint 22 collects 2 and 2 from the two swaps, nothing from the redemption paid in the other LST,
2 are withdrawn, and 2 are left. -/
theorem feeBooks : ∃ bs : List FeeEntry, List.Forall₂ (fun e b => Event.Books e feeB b ∧ b.sent = 0) (historyEvents .ex (st 3) feeHist) bs ∧
    bal (runHistory .ex (st 3) feeHist).led feeB + (bs.map FeeEntry.taken).sum = bal (st 3).led feeB + (bs.map FeeEntry.fee).sum := by
  have hf := List.all_eq_true.1 fee_facts.1
  refine C91_exact (st_reachable 3) feeHist ?_ fee_start rfl ?_ ?_
  · intro e he c hc
    obtain ⟨c', h1, h2⟩ := fee_call he
    rw [hc] at h1; injection h1 with h1; rw [h1, h2]; exact Env.pure_quiet
  · intro e he h0
    have := hf e he
    rw [h0] at this; simp at this
  · intro e he
    obtain ⟨c', h1, _⟩ := fee_call he
    have := hf e he
    simp only [Bool.and_eq_true, Bool.not_eq_true'] at this
    exact ⟨⟨c', h1⟩, pays_not this.2⟩

theorem sysFee_start : (sysAt 14).world.led.tok feeB = some ⟨8, 22, 5, 0⟩ := by decide +kernel
theorem sysFee_facts : ((systemEvents .ex (sysAt 14) (sysHist.drop 14)).all fun e => (e.post.world.led.tok feeB).isSome) = true ∧
    (systemEvents .ex (sysAt 14) (sysHist.drop 14)).map (fun e => bal e.post.world.led feeB) = [0, 0, 0, 0, 1] := by decide +kernel

theorem sysFee_owner : (⟨8, 22, 5, 0⟩ : TokenAcc).owner = sysc.cfg.protocolFee := by decide +kernel

/-- The system version applies to the rest of the example's history: deposits, swaps and a redemption, which pays a protocol fee of 1. -/
theorem sysFeeBooks : ∃ bs : List FeeEntry,
    List.Forall₂ (fun e b => Event.Books (SysEvent.ctl .ex e) feeB b) (systemEvents .ex (sysAt 14) (sysHist.drop 14)) bs ∧
    bal (runSystem .ex (sysAt 14) (sysHist.drop 14)).world.led feeB + (bs.map FeeEntry.taken).sum =
      bal (sysAt 14).world.led feeB + (bs.map FeeEntry.fee).sum + (bs.map FeeEntry.sent).sum := by
  have gen := @C91_system sysc .ex sys0 sys0_fresh (sysHist.take 14) (sysHist.drop 14)
  rw [show runSystem .ex sys0 (sysHist.take 14) = sysAt 14 from rfl] at gen
  refine gen ?_ sysFee_start sysFee_owner ?_
  · intro e he o accs data ha
    obtain ⟨t, h1, x, h2, h3⟩ := systemEvents_act he
    rw [ha] at h3
    obtain ⟨slot, rfl⟩ := sys_outside (List.mem_of_mem_drop h1) h2 h3
    exact Env.pure_quiet
  · intro e he h0
    have := List.all_eq_true.1 sysFee_facts.1 e he
    rw [h0] at this; cases this

end Ex

end S
