import Verif.Props.Movements
import Verif.Props.Conversions
import Verif.Proofs.CalcLaws
import Verif.Proofs.History
/-
C09, C10, C11: deposits and withdrawals never dilute the other LP token holders, and depositing and withdrawing at once never pays.
The LST is valued by one of the repository's calculators, on one set of stake pool data.
-/
set_option autoImplicit false
namespace S

/-! ### Specification -/

/-- Program `prog` values `mint` the way calculator `c` does: every answer it gives is the answer of `c`. -/
def Env.Values {cfg : Cfg} (L : RatioLib) (env : Env cfg) (prog mint : Pubkey) (c : AnyCalc) : Prop :=
  ∀ n w ms r l, ms.head?.map Acc.key = some mint →
    (∀ a, env.askCalc n w prog ms (.lstToSol a) = .ok (r, l) → (c.calculator L).lstToSol a = .ok r) ∧
    (∀ v, env.askCalc n w prog ms (.solToLst v) = .ok (r, l) → (c.calculator L).solToLst v = .ok r)

/-- The LST at index `i` of the list is valued as `c` does. -/
def ValuedBy {cfg : Cfg} (L : RatioLib) (env : Env cfg) (w : World) (i : Nat) (c : AnyCalc) : Prop :=
  ∀ s, w.ctl.lsts[i]? = some s → env.Values L s.solValueCalculator s.mint c

/-- The recorded total SOL value. -/
def totalOf (w : World) : Nat := (w.ctl.pool).elim 0 PoolState.totalSolValue

/-- The supply of LP tokens. -/
def lpSupply (w : World) : Nat := (w.ctl.pool).elim 0 (fun p => supplyOf w.led p.lpTokenMint)

/-- `k` is the address of the pool's reserves of LST `s`. -/
def IsReserves (cfg : Cfg) (w : World) (s : LstState) (k : Pubkey) : Prop :=
  ∃ m, w.led.mints s.mint = some m ∧ cfg.ata cfg.poolState m.program s.mint s.poolReservesBump = some k

/-- `T` is the total SOL value of the pool once the LST at index `i` is synced, i.e. its recorded value replaced by what its
calculator `c` says its reserves are worth. -/
def SyncedTotal (cfg : Cfg) (L : RatioLib) (w : World) (i : Nat) (c : AnyCalc) (T : Nat) : Prop :=
  ∃ p s k r, w.ctl.pool = some p ∧ w.ctl.lsts[i]? = some s ∧ IsReserves cfg w s k ∧
    (c.calculator L).lstToSol (bal w.led k) = .ok r ∧ T + s.solValue = p.totalSolValue + r.min

/-! ### What a deposit and a withdrawal do, in numbers -/

theorem lstAccounts_unique {cfg : Cfg} {w : World} (hi : Inv cfg w) {i : Nat} {s : LstState} (hs : w.ctl.lsts[i]? = some s)
    {k : Pubkey} (hk : IsReserves cfg w s k) : ∃ a, w.led.tok k = some a ∧ a.owner = cfg.poolState ∧ a.mint = s.mint := by
  obtain ⟨m, res, acc, ra, fa, la⟩ := hi.accs s (List.mem_of_getElem? hs)
  obtain ⟨m', hm, hk⟩ := hk
  have e := la.mint; rw [hm] at e; injection e with e; subst e
  have e := la.res_key; rw [hk] at e; injection e with e; subst e
  exact ⟨ra, la.res, la.ra_owner, la.ra_mint⟩

/-- The numbers of a deposit. -/
structure DepositNums (cfg : Cfg) (L : RatioLib) (env : Env cfg) (w w' : World) (accs : List Acc) (args : AddLiquidityArgs)
    (c : AnyCalc) (p : PoolState) (s : LstState) (m : Mint) (res userLst userLp : Pubkey) (T t' u lp toRes toFee : Nat) : Prop where
  pool : w.ctl.pool = some p
  entry : w.ctl.lsts[args.lstIndex]? = some s
  lpMint : w.led.mints p.lpTokenMint = some m
  isRes : IsReserves cfg w s res
  user : (accs[2]?).map Acc.key = some userLst
  user_ne : userLst ≠ res
  user_acc : ∃ a, w.led.tok userLst = some a ∧ a.mint = s.mint ∧ a.owner ≠ cfg.protocolFee
  lp_acc : ∃ a, w.led.tok userLp = some a ∧ a.mint = p.lpTokenMint
  answers : c.Answers
  synced : SyncedTotal cfg L w args.lstIndex c T
  total : T + s.solValue = p.totalSolValue + c.f (bal w.led res)
  after : t' + s.solValue = p.totalSolValue + c.f (bal w'.led res)
  price : ∃ n v ms l, env.askPrice n v p.pricingProgram ms (.lpTokensToMint args.lstAmount (c.f args.lstAmount)) = .ok (u, l)
  u_le : u ≤ c.f args.lstAmount
  minted : LpMinted m.supply T u lp
  lp_ne : lp ≠ 0
  lp_min : args.minLpOut ≤ lp
  lpUser : (accs[3]?).map Acc.key = some userLp
  lpBal : p.lpTokenMint ≠ s.mint → bal w'.led userLp = bal w.led userLp + lp
  fee : DepositFee args.lstAmount (c.f args.lstAmount) u p.lpProtocolFeeBps toFee
  sum : toRes + toFee = args.lstAmount
  toRes_ne : toRes ≠ 0
  bps : p.lpProtocolFeeBps ≤ 10000
  ctl : w'.ctl = { w.ctl with pool := some { p with totalSolValue := t' }, lsts := w.ctl.lsts.set args.lstIndex { s with solValue := c.f (bal w'.led res) } }
  mints : w'.led.mints = upd w.led.mints p.lpTokenMint (some { m with supply := m.supply + lp })
  resBal : bal w'.led res = bal w.led res + toRes + only userLp lp res
  userBal : p.lpTokenMint ≠ s.mint → bal w'.led userLst + args.lstAmount = bal w.led userLst
  same : SameAccounts w.led w'.led

theorem deposit_nums {cfg : Cfg} {L : RatioLib} {env : Env cfg} {tx : TxInfo} {w w' : World} {accs : List Acc}
    {args : AddLiquidityArgs} {c : AnyCalc} (hi : Inv cfg w) (hs : signersOk cfg accs) (hq : env.Quiet)
    (hc : ValuedBy L env w args.lstIndex c) (hu : c.Usable)
    (h : processIx cfg L env tx w accs (.addLiquidity args) = .ok w') :
    ∃ p s m res userLst userLp T t' u lp toRes toFee,
      DepositNums cfg L env w w' accs args c p s m res userLst userLp T t' u lp toRes toFee := by
  have hbps : ∀ p, w.ctl.pool = some p → p.lpProtocolFeeBps ≤ 10000 := by
    intro p hp; exact (hi.ctl.fees p hp).2
  obtain ⟨p, s, signer, userLst, userLp, feeAcc, res, m, r0, v, u, T, toRes, toFee, lp, hpar, hm, ⟨ua, hua, huo, hum⟩, hlp, a0, hT,
    a1, a2, hle, hmint, hlpne, hmin, hfee, hsum, hne, hb, hmints, hsame, r3, t, a3, ht, hctl⟩ := C06_addLiquidity hq h
  have hV := hc s hpar.entry
  have hI := AnyCalc.is L hu
  obtain ⟨mm, hmm, hres, hacc⟩ := hpar.derived
  have hR : IsReserves cfg w s res.key := ⟨mm, hmm, hres⟩
  obtain ⟨_, ms0, _, hms0, q0⟩ := a0
  obtain ⟨_, ms1, _, hms1, q1⟩ := a1
  obtain ⟨w2, ms2, _, hms2, q2⟩ := a2
  obtain ⟨_, ms3, _, hms3, q3⟩ := a3
  have c0 := (hV _ _ _ _ _ hms0).1 _ q0
  have c1 := (hV _ _ _ _ _ hms1).1 _ q1
  have c3 := (hV _ _ _ _ _ hms3).1 _ q3
  have e0 : r0.min = c.f (bal w.led res.key) := by rw [hI.lstToSol c0]; rfl
  have e1 : v.min = c.f args.lstAmount := by rw [hI.lstToSol c1]; rfl
  have e3 : r3.min = c.f (bal w'.led res.key) := by rw [hI.lstToSol c3]; rfl
  rw [e1] at q2 hle hfee
  have hsig : signer.key ≠ cfg.poolState ∧ signer.key ≠ cfg.protocolFee :=
    hs signer (List.mem_of_getElem? hpar.pos0) hpar.signed
  obtain ⟨ra, hra, hrao, _⟩ := lstAccounts_unique hi hpar.entry hR
  have hne1 : userLst.key ≠ res.key := by
    intro e; rw [e, hra] at hua; injection hua with e'; subst e'; exact hsig.1 (huo.symm.trans hrao)
  have hne2 : feeAcc.key ≠ res.key := by
    intro e; rw [e] at hacc; exact cfg.pool_ne_fee (cfg.ata_inj hres hacc).1
  have hne3 : userLst.key ≠ feeAcc.key := by
    intro e
    obtain ⟨m', res', acc', ra', fa', la⟩ := hi.accs s (List.mem_of_getElem? hpar.entry)
    have e' := la.mint; rw [hmm] at e'; injection e' with e'; subst e'
    have e' := la.acc_key; rw [hacc] at e'; injection e' with e'; subst e'
    have := la.acc; rw [← e, hua] at this; injection this with this; subst this
    exact hsig.2 (huo.symm.trans la.fa_owner)
  refine ⟨p, s, m, res.key, userLst.key, userLp.key, T, t, u, lp, toRes, toFee, {
    pool := hpar.pool
    entry := hpar.entry
    lpMint := hm
    isRes := hR
    user := by rw [hpar.pos2]; rfl
    user_ne := hne1
    user_acc := ⟨ua, hua, hum, huo ▸ hsig.2⟩
    lp_acc := hlp
    answers := AnyCalc.answers_of (.inl c1)
    synced := ⟨p, s, res.key, r0, hpar.pool, hpar.entry, hR, c0, hT⟩
    total := by rw [← e0]; exact hT
    after := by rw [← e3]; exact ht
    price := ⟨_, _, _, _, q2⟩
    u_le := hle
    minted := hmint
    lp_ne := hlpne
    lp_min := hmin
    lpUser := by rw [hpar.pos3]; rfl
    lpBal := by
      intro hne
      obtain ⟨la, hla, hlm⟩ := hlp
      have k1 : userLp.key ≠ userLst.key := by
        intro e; rw [e, hua] at hla; injection hla with hla; subst hla; exact hne (hlm.symm.trans hum)
      obtain ⟨m', res', acc', ra', fa', la'⟩ := hi.accs s (List.mem_of_getElem? hpar.entry)
      have e' := la'.mint; rw [hmm] at e'; injection e' with e'; subst e'
      have e1 := la'.acc_key; rw [hacc] at e1; injection e1 with e1; subst e1
      have e2 := la'.res_key; rw [hres] at e2; injection e2 with e2; subst e2
      have k2 : userLp.key ≠ res.key := by
        intro e; rw [e, la'.res] at hla; injection hla with hla; subst hla; exact hne (hlm.symm.trans la'.ra_mint)
      have k3 : userLp.key ≠ feeAcc.key := by
        intro e; rw [e, la'.acc] at hla; injection hla with hla; subst hla; exact hne (hlm.symm.trans la'.fa_mint)
      have := hb userLp.key
      rw [only_ne _ k1, only_ne _ k2, only_ne _ k3, only_self] at this
      omega
    fee := hfee
    sum := hsum
    toRes_ne := hne
    bps := hbps p hpar.pool
    ctl := by rw [← e3]; exact hctl
    mints := hmints
    resBal := by
      have := hb res.key
      rw [only_ne _ (Ne.symm hne1), only_self, only_ne _ (Ne.symm hne2)] at this
      omega
    userBal := by
      intro hne
      have := hb userLst.key
      have hne4 : userLst.key ≠ userLp.key := by
        intro e
        obtain ⟨la, hla, hlm⟩ := hlp
        rw [← e, hua] at hla; injection hla with hla; subst hla
        exact hne (hlm.symm.trans hum)
      rw [only_self, only_ne _ hne1, only_ne _ hne3, only_ne _ hne4] at this
      omega
    same := hsame }⟩

/-- The numbers of a withdrawal. -/
structure WithdrawNums (cfg : Cfg) (L : RatioLib) (env : Env cfg) (w w' : World) (accs : List Acc) (args : RemoveLiquidityArgs)
    (c : AnyCalc) (p : PoolState) (s : LstState) (m : Mint) (res userLst userLp : Pubkey) (T t' v u fee : Nat) : Prop where
  pool : w.ctl.pool = some p
  entry : w.ctl.lsts[args.lstIndex]? = some s
  lpMint : w.led.mints p.lpTokenMint = some m
  isRes : IsReserves cfg w s res
  user : (accs[2]?).map Acc.key = some userLst
  lp_acc : ∃ a, w.led.tok userLp = some a ∧ a.mint = p.lpTokenMint
  user_acc : ∃ a, w.led.tok userLst = some a ∧ a.mint = s.mint
  answers : c.Answers
  synced : SyncedTotal cfg L w args.lstIndex c T
  total : T + s.solValue = p.totalSolValue + c.f (bal w.led res)
  after : t' + s.solValue = p.totalSolValue + c.f (bal w'.led res)
  value : LpValue m.supply T args.lpTokenAmount v
  u_le : u ≤ v
  out_ne : c.rmin u ≠ 0
  hfee : RedeemFee v u (c.rmin u) p.lpProtocolFeeBps fee
  bps : p.lpProtocolFeeBps ≤ 10000
  ctl : w'.ctl = { w.ctl with pool := some { p with totalSolValue := t' }, lsts := w.ctl.lsts.set args.lstIndex { s with solValue := c.f (bal w'.led res) } }
  burnt : args.lpTokenAmount ≤ m.supply
  mints : w'.led.mints = upd w.led.mints p.lpTokenMint (some { m with supply := m.supply - args.lpTokenAmount })
  resBal : bal w'.led res + (c.rmin u + fee) = bal w.led res + only userLst (c.rmin u) res
  userBal : p.lpTokenMint ≠ s.mint → userLst ≠ res → bal w'.led userLst ≤ bal w.led userLst + c.rmin u + fee ∧
    ((∃ a, w.led.tok userLst = some a ∧ a.owner ≠ cfg.protocolFee) → bal w'.led userLst = bal w.led userLst + c.rmin u)

theorem withdraw_nums {cfg : Cfg} {L : RatioLib} {env : Env cfg} {tx : TxInfo} {w w' : World} {accs : List Acc}
    {args : RemoveLiquidityArgs} {c : AnyCalc} (hi : Inv cfg w) (hs : signersOk cfg accs) (hq : env.Quiet)
    (hc : ValuedBy L env w args.lstIndex c) (hu : c.Usable)
    (h : processIx cfg L env tx w accs (.removeLiquidity args) = .ok w') :
    ∃ p s m res userLst userLp T t' v u fee,
      WithdrawNums cfg L env w w' accs args c p s m res userLst userLp T t' v u fee := by
  have hbps : ∀ p, w.ctl.pool = some p → p.lpProtocolFeeBps ≤ 10000 := by
    intro p hp; exact (hi.ctl.fees p hp).2
  obtain ⟨p, s, signer, userLst, userLp, feeAcc, res, m, r0, T, v, u, out, fee, hpar, hm, ⟨la, hla, hlo, hlm⟩, ⟨ua, hua, hum⟩, a0, hT,
    hval, a1, hle, a2, hone, hmin, hnz, hfee, hb, hburn, hmints, hsame, r3, t, a3, ht, hctl⟩ := C07_removeLiquidity hq h
  have hV := hc s hpar.entry
  have hI := AnyCalc.is L hu
  obtain ⟨mm, hmm, hres, hacc⟩ := hpar.derived
  have hR : IsReserves cfg w s res.key := ⟨mm, hmm, hres⟩
  obtain ⟨_, ms0, _, hms0, q0⟩ := a0
  obtain ⟨_, ms2, _, hms2, q2⟩ := a2
  obtain ⟨_, ms3, _, hms3, q3⟩ := a3
  have c0 := (hV _ _ _ _ _ hms0).1 _ q0
  have c2 := (hV _ _ _ _ _ hms2).2 _ q2
  have c3 := (hV _ _ _ _ _ hms3).1 _ q3
  have e0 : r0.min = c.f (bal w.led res.key) := by rw [hI.lstToSol c0]; rfl
  have e2 : out.min = c.rmin u := by rw [hI.solToLst c2]
  have e3 : r3.min = c.f (bal w'.led res.key) := by rw [hI.lstToSol c3]; rfl
  rw [e2] at hone hfee hb
  have hsig : signer.key ≠ cfg.poolState ∧ signer.key ≠ cfg.protocolFee :=
    hs signer (List.mem_of_getElem? hpar.pos0) hpar.signed
  obtain ⟨ra, hra, hrao, _⟩ := lstAccounts_unique hi hpar.entry hR
  have hne1 : userLp.key ≠ res.key := by
    intro e; rw [e, hra] at hla; injection hla with e'; subst e'; exact hsig.1 (hlo.symm.trans hrao)
  have hne2 : feeAcc.key ≠ res.key := by
    intro e; rw [e] at hacc; exact cfg.pool_ne_fee (cfg.ata_inj hres hacc).1
  have hresBal : bal w'.led res.key + (c.rmin u + fee) = bal w.led res.key + only userLst.key (c.rmin u) res.key := by
    have := hb res.key
    rw [only_ne _ (Ne.symm hne1), only_self, only_ne _ (Ne.symm hne2)] at this
    omega
  refine ⟨p, s, m, res.key, userLst.key, userLp.key, T, t, v, u, fee, {
    pool := hpar.pool
    entry := hpar.entry
    lpMint := hm
    isRes := hR
    user := by rw [hpar.pos2]; rfl
    lp_acc := ⟨la, hla, hlm⟩
    user_acc := ⟨ua, hua, hum⟩
    answers := AnyCalc.answers_of (.inr c2)
    synced := ⟨p, s, res.key, r0, hpar.pool, hpar.entry, hR, c0, hT⟩
    total := by rw [← e0]; exact hT
    after := by rw [← e3]; exact ht
    value := hval
    u_le := hle
    out_ne := hone
    hfee := hfee
    bps := hbps p hpar.pool
    ctl := by rw [← e3]; exact hctl
    burnt := hburn
    mints := hmints
    resBal := hresBal
    userBal := ?_ }⟩
  · intro hne hne'
    have hne4 : userLst.key ≠ userLp.key := by
      intro e
      rw [← e, hua] at hla; injection hla with hla; subst hla
      exact hne (hlm.symm.trans hum)
    have hk := hb userLst.key
    rw [only_self, only_ne _ hne4, only_ne _ hne'] at hk
    refine ⟨?_, ?_⟩
    · have : only feeAcc.key fee userLst.key ≤ fee := by unfold only; split <;> omega
      omega
    · rintro ⟨a, ha, hao⟩
      have hne3 : userLst.key ≠ feeAcc.key := by
        intro e
        obtain ⟨m', res', acc', ra', fa', la'⟩ := hi.accs s (List.mem_of_getElem? hpar.entry)
        have e' := la'.mint; rw [hmm] at e'; injection e' with e'; subst e'
        have e' := la'.acc_key; rw [hacc] at e'; injection e' with e'; subst e'
        have := la'.acc; rw [← e, ha] at this; injection this with this; subst this
        exact hao la'.fa_owner
      rw [only_ne _ hne3] at hk
      omega

theorem share_le {x bps : Nat} (h : bps ≤ 10000) : cdiv (x * bps) 10000 ≤ x :=
  (cdiv_le_iff (by decide)).2 (Nat.mul_le_mul_left x h)

section
variable {cfg : Cfg} {L : RatioLib} {env : Env cfg} {w w' : World} {accs : List Acc} {args : AddLiquidityArgs}
  {c : AnyCalc} {p : PoolState} {s : LstState} {m : Mint} {res userLst userLp : Pubkey} {T t' u lp toRes toFee : Nat}

theorem DepositNums.totalOf (n : DepositNums cfg L env w w' accs args c p s m res userLst userLp T t' u lp toRes toFee) :
    totalOf w' = t' := by rw [S.totalOf, n.ctl]; rfl

theorem DepositNums.supply (n : DepositNums cfg L env w w' accs args c p s m res userLst userLp T t' u lp toRes toFee) :
    lpSupply w = m.supply ∧ lpSupply w' = m.supply + lp := by
  constructor
  · rw [lpSupply, n.pool]; show supplyOf w.led p.lpTokenMint = _; rw [supplyOf, n.lpMint]; rfl
  · rw [lpSupply, n.ctl]; show supplyOf w'.led p.lpTokenMint = _; rw [supplyOf, n.mints, upd_same]; rfl

/-- The value added to the reserves covers the value credited, up to `slack`. -/
theorem DepositNums.gain (n : DepositNums cfg L env w w' accs args c p s m res userLst userLp T t' u lp toRes toFee)
    (hu : c.Usable) : c.f (bal w.led res) + u ≤ c.f (bal w'.led res) + c.depositSlack := by
  have hm {x y : Nat} (h : x ≤ y) : c.f x ≤ c.f y := (c.conv hu n.answers).fmono h
  have hb := n.resBal
  have hsum := n.sum
  by_cases h0 : u = 0
  · have := hm (show bal w.led res ≤ bal w'.led res by omega); omega
  · have hv : c.f args.lstAmount ≠ 0 := by have := n.u_le; omega
    have hf := n.fee hv
    have hp : toFee * c.f args.lstAmount ≤ (c.f args.lstAmount - u) * args.lstAmount := by
      rw [hf]
      exact (Nat.div_mul_le_self _ _).trans (Nat.mul_le_mul_right _ (share_le n.bps))
    have h1 := AnyCalc.dep hu (b := bal w.led res) n.u_le hv hp (by omega)
    have h2 := hm (show bal w.led res + (args.lstAmount - toFee) ≤ bal w'.led res by omega)
    omega

/-- The same when the deposit is credited in full. -/
theorem DepositNums.gain_full (n : DepositNums cfg L env w w' accs args c p s m res userLst userLp T t' u lp toRes toFee)
    (hu : c.Usable) (hf : u = c.f args.lstAmount) {k : Nat} (hk : ∀ a b, c.f a + c.f b ≤ c.f (a + b) + k) :
    c.f (bal w.led res) + u ≤ c.f (bal w'.led res) + k := by
  have hm {x y : Nat} (h : x ≤ y) : c.f x ≤ c.f y := (c.conv hu n.answers).fmono h
  have hb := n.resBal
  have hsum := n.sum
  by_cases h0 : u = 0
  · have := hm (show bal w.led res ≤ bal w'.led res by omega); omega
  · have hff := n.fee (by omega)
    have : toFee = 0 := by rw [hff, hf]; simp [cdiv]
    have h1 := hk (bal w.led res) args.lstAmount
    have h2 := hm (show bal w.led res + args.lstAmount ≤ bal w'.led res by omega)
    omega

/-- LP tokens are minted at no more than the LP rate before the deposit. -/
theorem DepositNums.rate (n : DepositNums cfg L env w w' accs args c p s m res userLst userLp T t' u lp toRes toFee)
    (hS : m.supply ≠ 0) : lp * T ≤ u * m.supply := by
  by_cases hT : T = 0
  · rw [hT]; omega
  · rw [n.minted.2.2 hS hT]; exact Nat.div_mul_le_self _ _

theorem DepositNums.dilution (n : DepositNums cfg L env w w' accs args c p s m res userLst userLp T t' u lp toRes toFee)
    {k : Nat} (hg : c.f (bal w.led res) + u ≤ c.f (bal w'.led res) + k) :
    (lpSupply w ≠ 0 → T * lpSupply w' ≤ (S.totalOf w' + k) * lpSupply w) ∧
    (lpSupply w = 0 → lpSupply w' ≤ S.totalOf w' + k) := by
  rw [n.totalOf, n.supply.1, n.supply.2]
  have h1 := n.total
  have h2 := n.after
  have h3 : T + u ≤ t' + k := by omega
  constructor
  · intro hS
    have h4 := n.rate hS
    have h5 := Nat.mul_le_mul_right m.supply h3
    have e1 : T * (m.supply + lp) = T * m.supply + lp * T := by ring
    have e2 : (T + u) * m.supply = T * m.supply + u * m.supply := by ring
    omega
  · intro hS
    have := n.minted.1 hS
    omega
end

/-! ### C09 -/

/-- C09: the value of an LP token after a deposit, `totalOf w' / lpSupply w'`, is at least its value before, `T / lpSupply w`, up to
rounding losses of `depositSlack` lamports in total: 0 for wSOL, Lido and stake pools without withdrawal fee, 2 for Marinade with
a fee, one pool token's worth for SPL stake pools with a fee. `T` is the pool's total after syncing the LST. When there are
no LP tokens yet, the first ones are worth at least one lamport each, up to the same slack. Pricing is arbitrary. -/
theorem C09_addLiquidity {cfg : Cfg} {L : RatioLib} {env : Env cfg} {tx : TxInfo} {w w' : World} {accs : List Acc}
    {args : AddLiquidityArgs} {c : AnyCalc} (hr : Reachable cfg L w) (hs : signersOk cfg accs) (hq : env.Quiet)
    (hc : ValuedBy L env w args.lstIndex c) (hu : c.Usable)
    (h : processIx cfg L env tx w accs (.addLiquidity args) = .ok w') :
    ∃ T, SyncedTotal cfg L w args.lstIndex c T ∧
      (lpSupply w ≠ 0 → T * lpSupply w' ≤ (totalOf w' + c.depositSlack) * lpSupply w) ∧
      (lpSupply w = 0 → lpSupply w' ≤ totalOf w' + c.depositSlack) := by
  obtain ⟨p, s, m, res, userLst, userLp, T, t', u, lp, toRes, toFee, n⟩ := deposit_nums hr.inv hs hq hc hu h
  exact ⟨T, n.synced, n.dilution (n.gain hu)⟩

/-- C09 with a pricing program that credits deposits in full, as the flat-fee and the no-fee program do: no loss at all with a
proportional calculator (all but Marinade with a withdrawal fee), at most one lamport otherwise. -/
theorem C09_addLiquidity_full {cfg : Cfg} {L : RatioLib} {env : Env cfg} {tx : TxInfo} {w w' : World} {accs : List Acc}
    {args : AddLiquidityArgs} {c : AnyCalc} (hr : Reachable cfg L w) (hs : signersOk cfg accs) (hq : env.Quiet)
    (hc : ValuedBy L env w args.lstIndex c) (hu : c.Usable)
    (hp : ∀ n w prog ms a v r l, env.askPrice n w prog ms (.lpTokensToMint a v) = .ok (r, l) → r = v)
    (h : processIx cfg L env tx w accs (.addLiquidity args) = .ok w') :
    ∃ T k, SyncedTotal cfg L w args.lstIndex c T ∧ (c.Proportional → k = 0) ∧ k ≤ 1 ∧
      (lpSupply w ≠ 0 → T * lpSupply w' ≤ (totalOf w' + k) * lpSupply w) ∧
      (lpSupply w = 0 → lpSupply w' ≤ totalOf w' + k) := by
  obtain ⟨p, s, m, res, userLst, userLp, T, t', u, lp, toRes, toFee, n⟩ := deposit_nums hr.inv hs hq hc hu h
  obtain ⟨_, _, _, _, hpr⟩ := n.price
  have hfull := hp _ _ _ _ _ _ _ _ hpr
  by_cases hP : c.Proportional
  · exact ⟨T, 0, n.synced, fun _ => rfl, by omega, n.dilution (n.gain_full hu hfull fun a b => by
      have := AnyCalc.f_superadd hP a b; omega)⟩
  · exact ⟨T, 1, n.synced, fun x => absurd x hP, Nat.le_refl _, n.dilution (n.gain_full hu hfull fun a b =>
      AnyCalc.f_almost_superadd hu a b)⟩

/-! ### C10 -/

section
variable {cfg : Cfg} {L : RatioLib} {env : Env cfg} {w w' : World} {accs : List Acc} {args : RemoveLiquidityArgs}
  {c : AnyCalc} {p : PoolState} {s : LstState} {m : Mint} {res userLst userLp : Pubkey} {T t' v u fee : Nat}

theorem AnyCalc.rmin_zero (c : AnyCalc) : c.rmin 0 = 0 := by
  cases c <;> simp [AnyCalc.rmin, splFeeMin, mndeFeeMin]

theorem WithdrawNums.u_ne (n : WithdrawNums cfg L env w w' accs args c p s m res userLst userLp T t' v u fee) : u ≠ 0 := by
  intro e; have := n.out_ne; rw [e, c.rmin_zero] at this; exact this rfl

theorem WithdrawNums.totalOf (n : WithdrawNums cfg L env w w' accs args c p s m res userLst userLp T t' v u fee) :
    totalOf w' = t' := by rw [S.totalOf, n.ctl]; rfl

theorem WithdrawNums.supply (n : WithdrawNums cfg L env w w' accs args c p s m res userLst userLp T t' v u fee) :
    lpSupply w = m.supply ∧ lpSupply w' = m.supply - args.lpTokenAmount := by
  constructor
  · rw [lpSupply, n.pool]; show supplyOf w.led p.lpTokenMint = _; rw [supplyOf, n.lpMint]; rfl
  · rw [lpSupply, n.ctl]; show supplyOf w'.led p.lpTokenMint = _; rw [supplyOf, n.mints, upd_same]; rfl

theorem WithdrawNums.rate (n : WithdrawNums cfg L env w w' accs args c p s m res userLst userLp T t' v u fee) :
    v * m.supply ≤ args.lpTokenAmount * T := by
  by_cases h : m.supply = 0 ∨ T = 0
  · rw [n.value.1 h]; omega
  · have h1 : m.supply ≠ 0 := fun e => h (.inl e)
    have h2 : T ≠ 0 := fun e => h (.inr e)
    rw [n.value.2 h1 h2]; exact Nat.div_mul_le_self _ _

/-- The value taken from the reserves is at most the LP value, up to `redeemSlack`. -/
theorem WithdrawNums.loss (n : WithdrawNums cfg L env w w' accs args c p s m res userLst userLp T t' v u fee) (hu : c.Usable) :
    c.f (bal w.led res) ≤ c.f (bal w'.led res) + v + c.redeemSlack := by
  have hm {x y : Nat} (h : x ≤ y) : c.f x ≤ c.f y := (c.conv hu n.answers).fmono h
  have hb := n.resBal
  have hp : fee * u ≤ (v - u) * c.rmin u := by
    rw [n.hfee n.u_ne]
    exact (Nat.div_mul_le_self _ _).trans (Nat.mul_le_mul_right _ (share_le n.bps))
  have h1 := AnyCalc.red hu n.answers (b := bal w.led res + only userLst (c.rmin u) res) n.u_ne n.u_le hp (by omega)
  have h2 := hm (show bal w.led res ≤ bal w.led res + only userLst (c.rmin u) res by omega)
  have e : bal w.led res + only userLst (c.rmin u) res - (c.rmin u + fee) = bal w'.led res := by omega
  rw [e] at h1
  have h3 : (if fee = 0 then 0 else c.redeemSlack) ≤ c.redeemSlack := by split <;> omega
  omega
end

theorem redeem_rate {cfg : Cfg} {L : RatioLib} {env : Env cfg} {tx : TxInfo} {w w' : World} {accs : List Acc}
    {args : RemoveLiquidityArgs} {c : AnyCalc} (hi : Inv cfg w) (hs : signersOk cfg accs) (hq : env.Quiet)
    (hc : ValuedBy L env w args.lstIndex c) (hu : c.Usable)
    (h : processIx cfg L env tx w accs (.removeLiquidity args) = .ok w') :
    ∃ T, SyncedTotal cfg L w args.lstIndex c T ∧ lpSupply w' ≤ lpSupply w ∧
      T * lpSupply w' ≤ (totalOf w' + c.redeemSlack) * lpSupply w := by
  obtain ⟨p, s, m, res, userLst, userLp, T, t', v, u, fee, n⟩ := withdraw_nums hi hs hq hc hu h
  refine ⟨T, n.synced, by rw [n.supply.1, n.supply.2]; omega, ?_⟩
  rw [n.totalOf, n.supply.1, n.supply.2]
  have h1 := n.total
  have h2 := n.after
  have h3 := n.loss hu
  have h4 := n.rate
  have h5 : T ≤ t' + c.redeemSlack + v := by omega
  have h6 := Nat.mul_le_mul_right m.supply h5
  have e1 : (t' + c.redeemSlack + v) * m.supply = (t' + c.redeemSlack) * m.supply + v * m.supply := by ring
  have e2 : T * (m.supply - args.lpTokenAmount) = T * m.supply - args.lpTokenAmount * T := by
    rw [Nat.mul_sub, Nat.mul_comm T args.lpTokenAmount]
  omega

/-- C10: the value of an LP token after a withdrawal, `totalOf w' / lpSupply w'`, is at least its value before, `T / lpSupply w`, up to
rounding losses of `redeemSlack` lamports in total: 0 for all calculators but SPL stake pools with a withdrawal fee, where it is
one pool token's worth. `T` is the pool's total after syncing the LST. Pricing is arbitrary. -/
theorem C10_removeLiquidity {cfg : Cfg} {L : RatioLib} {env : Env cfg} {tx : TxInfo} {w w' : World} {accs : List Acc}
    {args : RemoveLiquidityArgs} {c : AnyCalc} (hr : Reachable cfg L w) (hs : signersOk cfg accs) (hq : env.Quiet)
    (hc : ValuedBy L env w args.lstIndex c) (hu : c.Usable)
    (h : processIx cfg L env tx w accs (.removeLiquidity args) = .ok w') :
    ∃ T, SyncedTotal cfg L w args.lstIndex c T ∧ lpSupply w' ≤ lpSupply w ∧
      T * lpSupply w' ≤ (totalOf w' + c.redeemSlack) * lpSupply w :=
  redeem_rate hr.inv hs hq hc hu h

/-! ### C11 -/

/-- LP tokens for `u` bought at rate `S / T`, redeemed when the total has grown by `x`, are worth at most `u`, or less than `x`. -/
theorem lp_there_and_back {S T lp u x v : Nat} (hS : S ≠ 0) (h1 : lp * T ≤ u * S) (h2 : v * (S + lp) ≤ lp * (T + x)) :
    v ≤ u ∨ v + 1 ≤ x := by
  by_contra hc
  have h3 : u + 1 ≤ v := by omega
  have h4 : x ≤ v := by omega
  have h5 := Nat.mul_le_mul_right S h3
  have h6 := Nat.mul_le_mul_left lp h4
  have e1 : v * (S + lp) = v * S + lp * v := by ring
  have e2 : (u + 1) * S = u * S + S := by ring
  have e3 : lp * (T + x) = lp * T + lp * x := by ring
  omega

/-- C11: who deposits `lstAmount` of an LST and then redeems at most the LP tokens this minted, into the account `k` that paid, ends with
at most the balance before. Holds for every calculator and any pricing program; both instructions must see the same stake pool
data. Exceptions: the very first deposit (no LP tokens yet) into a pool that already holds LST gets those too (`hfirst`), and the
LST must not be the pool's own LP token. -/
theorem C11_no_profit {cfg : Cfg} {L : RatioLib} {env₁ env₂ : Env cfg} {tx₁ tx₂ : TxInfo} {w w₁ w₂ : World}
    {accs₁ accs₂ : List Acc} {a₁ : AddLiquidityArgs} {a₂ : RemoveLiquidityArgs} {c : AnyCalc} {k : Pubkey}
    (hr : Reachable cfg L w) (hs₁ : signersOk cfg accs₁) (hs₂ : signersOk cfg accs₂) (hq₁ : env₁.Quiet) (hq₂ : env₂.Quiet)
    (hc₁ : ValuedBy L env₁ w a₁.lstIndex c) (hc₂ : ValuedBy L env₂ w₁ a₁.lstIndex c) (hu : c.Usable)
    (h₁ : processIx cfg L env₁ tx₁ w accs₁ (.addLiquidity a₁) = .ok w₁)
    (h₂ : processIx cfg L env₂ tx₂ w₁ accs₂ (.removeLiquidity a₂) = .ok w₂)
    (hidx : a₂.lstIndex = a₁.lstIndex) (hk₁ : (accs₁[2]?).map Acc.key = some k) (hk₂ : (accs₂[2]?).map Acc.key = some k)
    (hlp : lpSupply w + a₂.lpTokenAmount ≤ lpSupply w₁)
    (hfirst : lpSupply w = 0 → SyncedTotal cfg L w a₁.lstIndex c 0 ∧
      ∀ s r, w.ctl.lsts[a₁.lstIndex]? = some s → IsReserves cfg w s r → bal w.led r = 0)
    (hmint : ∀ p s, w.ctl.pool = some p → w.ctl.lsts[a₁.lstIndex]? = some s → p.lpTokenMint ≠ s.mint) :
    bal w₂.led k ≤ bal w.led k := by
  obtain ⟨p, s, m, res, userLst, userLp, T, t', u, lp, toRes, toFee, n⟩ := deposit_nums hr.inv hs₁ hq₁ hc₁ hu h₁
  have hi₁ := hr.inv.ix h₁
  obtain ⟨p₂, s₂, m₂, res₂, userLst₂, userLp₂, T₂, t₂, v₂, u₂, fee₂, n₂⟩ :=
    withdraw_nums hi₁ hs₂ hq₂ (hidx.symm ▸ hc₂) hu h₂
  have hkk := n.user; rw [hk₁] at hkk; injection hkk with hkk; subst hkk
  have hkk := n₂.user; rw [hk₂] at hkk; injection hkk with hkk; subst hkk
  have hne := hmint p s n.pool n.entry
  have hlt : a₁.lstIndex < w.ctl.lsts.length := (List.getElem?_eq_some_iff.1 n.entry).1
  -- the second instruction sees what the first left
  have ep : p₂ = { p with totalSolValue := t' } := by
    have := n₂.pool; rw [n.ctl] at this; injection this with this; exact this.symm
  have es : s₂ = { s with solValue := c.f (bal w₁.led res) } := by
    have := n₂.entry; rw [n.ctl, hidx] at this
    simp only [List.getElem?_set_self hlt] at this; injection this with this; exact this.symm
  subst ep; subst es
  have em : m₂ = { m with supply := m.supply + lp } := by
    have := n₂.lpMint; rw [n.mints] at this; simp only [upd_same] at this; injection this with this; exact this.symm
  subst em
  have er : res₂ = res := by
    obtain ⟨x, hx, hx'⟩ := n.isRes
    obtain ⟨y, hy, hy'⟩ := n₂.isRes
    rw [n.mints, upd_ne _ _ (fun e => hne e.symm)] at hy
    simp only at hy hy'
    rw [hx] at hy; injection hy with hy; subst hy
    rw [hx'] at hy'; injection hy' with hy'; exact hy'.symm
  subst er
  have hlpres : userLp ≠ res₂ := by
    intro e
    obtain ⟨ra, hra, _, hram⟩ := lstAccounts_unique hr.inv n.entry n.isRes
    obtain ⟨la, hla, hlam⟩ := n.lp_acc
    rw [e, hra] at hla; injection hla with hla; subst hla
    exact hne (hlam.symm.trans hram)
  have hb₁ := n.resBal
  rw [only_ne _ (Ne.symm hlpres), Nat.add_zero] at hb₁
  have hconv := c.conv hu n.answers
  have hmono {x y : Nat} (h : x ≤ y) : c.f x ≤ c.f y := hconv.fmono h
  have eT : T₂ = t' := by have := n₂.total; simp only at this; omega
  have e1 := n.total
  have e2 := n.after
  have hx := hmono (show bal w.led res₂ ≤ bal w₁.led res₂ by omega)
  have hv₂ : v₂ ≤ c.f a₁.lstAmount ∨ c.rmin v₂ ≤ toRes := by
    have hrate := n₂.rate
    simp only at hrate
    rw [eT] at hrate
    have hlp' : a₂.lpTokenAmount ≤ lp := by
      have := n.supply; rw [this.1, this.2] at hlp; omega
    have hrate' := hrate.trans (Nat.mul_le_mul_right t' hlp')
    have hsum := n.sum
    have hto := hmono (show toRes ≤ a₁.lstAmount by omega)
    by_cases hS : m.supply = 0
    · obtain ⟨⟨p0, s0, k0, r0, hp0, hs0, hk0, hr0, hT0⟩, hres0⟩ := hfirst (by rw [n.supply.1]; exact hS)
      have hz := hres0 s res₂ n.entry n.isRes
      have hT : T = 0 := by
        rw [n.pool] at hp0; injection hp0 with hp0; subst hp0
        rw [n.entry] at hs0; injection hs0 with hs0; subst hs0
        have ek : k0 = res₂ := by
          obtain ⟨x, hx, hx'⟩ := n.isRes
          obtain ⟨y, hy, hy'⟩ := hk0
          rw [hx] at hy; injection hy with hy; subst hy
          rw [hx'] at hy'; injection hy' with hy'; exact hy'.symm
        subst ek
        rw [(AnyCalc.is L hu).lstToSol hr0] at hT0
        simp only [Range.single] at hT0
        omega
      have hz' : c.f (bal w.led res₂) = 0 := by rw [hz]; exact hconv.zero
      rw [hz, Nat.zero_add] at hb₁
      rw [hb₁] at e2
      have ht : t' ≤ c.f a₁.lstAmount := by omega
      have hlp0 : lp ≠ 0 := n.lp_ne
      rw [hS, Nat.zero_add, Nat.mul_comm] at hrate'
      have := Nat.le_of_mul_le_mul_left hrate' (Nat.pos_of_ne_zero hlp0)
      exact .inl (by omega)
    · have h3 : t' = T + (c.f (bal w₁.led res₂) - c.f (bal w.led res₂)) := by omega
      rw [h3] at hrate'
      have := n.u_le
      rcases lp_there_and_back hS (n.rate hS) hrate' with h5 | h5
      · exact .inl (by omega)
      · refine .inr (AnyCalc.rmin_le_of_gain hu n.answers (b := bal w.led res₂) ?_)
        rw [← hb₁]; omega
  obtain ⟨ua, hua, hum, huo⟩ := n.user_acc
  have hown : ∃ a, w₁.led.tok k = some a ∧ a.owner ≠ cfg.protocolFee := by
    have := n.same k
    rw [hua] at this
    cases h : w₁.led.tok k with
    | none => rw [h] at this; cases this
    | some a =>
      rw [h] at this
      simp only [Option.map_some, Option.some.injEq, Prod.mk.injEq] at this
      exact ⟨a, rfl, by rw [this.2.2]; exact huo⟩
  have hb2 := (n₂.userBal hne n.user_ne).2 hown
  have hb1 := n.userBal hne
  have hback : c.rmin u₂ ≤ a₁.lstAmount := by
    have h6 := hconv.minMono n₂.u_le
    have hsum := n.sum
    rcases hv₂ with h7 | h7
    · exact h6.trans ((hconv.minMono h7).trans (hconv.backMin _))
    · omega
  omega

/-! ### Concrete cases -/

/-- In the example world LST 22 is valued by program 32 as a Lido pool with 3 lamports for 2 stSOL. -/
theorem Ex.valued (w : World) (i : Nat) (hw : ∀ s, w.ctl.lsts[i]? = some s → s.solValueCalculator = 32) :
    ValuedBy .ex Ex.env w i (.lido ⟨0, 2, 3⟩) := by
  intro s hs n w' ms r l hm
  rw [hw s hs]
  exact ⟨fun a h => (Env.pure_calc.1 h).1, fun v h => (Env.pure_calc.1 h).1⟩

/-- Likewise LST 21 by program 31 as wrapped SOL. -/
theorem Ex.valuedA (w : World) (i : Nat) (hw : ∀ s, w.ctl.lsts[i]? = some s → s.solValueCalculator = 31) :
    ValuedBy .ex Ex.env w i .wsol := by
  intro s hs n w' ms r l hm
  rw [hw s hs]
  exact ⟨fun a h => (Env.pure_calc.1 h).1, fun v h => (Env.pure_calc.1 h).1⟩

/-- After seven of the example's transactions: a deposit of 7 of LST 22 and its withdrawal. -/
def Ex.dep7 : World := ((processIx Ex.cfg .ex Ex.env ⟨[], 0⟩ (Ex.st 7) Ex.liqB (.addLiquidity ⟨1, 1, 7, 1⟩)).toOption).getD Ex.w0
def Ex.back7 : World :=
  ((processIx Ex.cfg .ex Ex.env ⟨[], 0⟩ Ex.dep7 Ex.liqB (.removeLiquidity ⟨1, 1, 9, 1⟩)).toOption).getD Ex.w0


-- The hypotheses of C09, C10 and C11 hold of these runs, with LP tokens outstanding; 7 go in, 5 come back.
example : signersOk Ex.cfg Ex.liqB ∧ lpSupply (Ex.st 7) = 60000 ∧
    ((Ex.st 7).ctl.lsts[1]?).map LstState.solValueCalculator = some 32 ∧
    (processIx Ex.cfg .ex Ex.env ⟨[], 0⟩ (Ex.st 7) Ex.liqB (.addLiquidity ⟨1, 1, 7, 1⟩)).toOption.isSome = true ∧
    (processIx Ex.cfg .ex Ex.env ⟨[], 0⟩ Ex.dep7 Ex.liqB (.removeLiquidity ⟨1, 1, 9, 1⟩)).toOption.isSome = true ∧
    [lpSupply Ex.dep7, lpSupply Ex.back7] = [60009, 60000] ∧
    [totalOf (Ex.st 7), totalOf Ex.dep7, totalOf Ex.back7] = [60055, 60065, 60058] ∧
    [bal (Ex.st 7).led 42, bal Ex.dep7.led 42, bal Ex.back7.led 42] = [983980, 983973, 983978] := by decide +kernel

example : AnyCalc.Usable (.lido ⟨0, 2, 3⟩) ∧ Ex.env.Quiet := ⟨⟨by decide, by decide⟩, Env.pure_quiet⟩

end S
