import Verif.CliRoute
import Verif.Props.CliRebalance
import Verif.Props.RebalanceMoves
import Verif.Props.Canonical
import Verif.Props.Order
import Verif.Props.CliSync
import Verif.Props.Subsidy
/-
C93, C95: the amount argument `all`, the route through the stake pools, and the transactions of the rebalancing commands.
-/
set_option autoImplicit false
namespace S

/-! ### The statement -/

/-- StartRebalance took `amt` tokens of the LST `src` out of the pool's reserves, the associated token account of the pool, into `dest`, and touched no other account. -/
structure TakenOut (cfg : Cfg) (w w' : World) (src : MintAcc) (dest : Pubkey) (amt : Nat) : Prop where
  left : bal w'.led (cfg.findAta cfg.poolState src.owner src.key).1 + amt = bal w.led (cfg.findAta cfg.poolState src.owner src.key).1
  got : bal w'.led dest = bal w.led dest + amt
  others : ∀ k, k ≠ (cfg.findAta cfg.poolState src.owner src.key).1 → k ≠ dest → bal w'.led k = bal w.led k

/-- What the user asked for: an amount, or everything the pool holds. -/
def Asked (cfg : Cfg) (w w' : World) (src : MintAcc) (amt : Nat) : AmtArg → Prop
  | .amt n => amt = n
  | .all => amt = bal w.led (cfg.findAta cfg.poolState src.owner src.key).1 ∧ bal w'.led (cfg.findAta cfg.poolState src.owner src.key).1 = 0

/-- The token accounts an instruction spends from, and how much. -/
def CliIx.spends : CliIx → List (Pubkey × Nat)
  | .withdrawStake _ _ _ s n | .depositSol _ s _ n | .withdrawSol _ s _ n | .transfer _ s _ _ n => [(s, n)]
  | .createAta .. | .start _ | .createStake .. | .depositStake .. | .solTransfer .. | .syncNative _ | .finish _ => []

/-- The token accounts an instruction pays into. -/
def CliIx.paysInto : CliIx → List Pubkey
  | .depositStake _ _ _ d | .depositSol _ _ d _ | .withdrawSol _ _ d _ | .transfer _ _ _ d _ | .solTransfer _ d _ | .syncNative d => [d]
  | .createAta .. | .start _ | .createStake .. | .withdrawStake .. | .finish _ => []

/-- What the transaction spends besides what StartRebalance took out: at most one payment, of no more than the payer has on its own associated token account. -/
def Affords (cfg : Cfg) (w : World) (wallet : Pubkey) (e : SanctumLst) (xs : List (Pubkey × Nat)) : Prop :=
  xs.length ≤ 1 ∧ ∀ x ∈ xs, x.1 = (cfg.findAta wallet e.tokenProgram e.mint).1 ∧ 0 < x.2 ∧ x.2 ≤ bal w.led x.1

/-- The transaction: at most the creation of the payer's own token account, StartRebalance, instructions of other programs, EndRebalance. -/
structure RebalShape (wallet : Pubkey) (src : MintAcc) (out : List CliIx) (start : TopIx) (mid : List CliIx) (finish : TopIx) : Prop where
  shape : ∃ pre, out = pre ++ .start start :: (mid ++ [.finish finish]) ∧ ∀ x ∈ pre, x = .createAta wallet wallet src.key src.owner
  foreign : ∀ x ∈ mid, ∀ ix, x ≠ .start ix ∧ x ≠ .finish ix

/-- What a command's transaction does, in short. `extra` is what it spends besides the amount taken out. -/
structure CmdOk (J : JupCfg) (L : RatioLib) (w : World) (wallet : Pubkey) (src dst : MintAcc) (arg : AmtArg) (out : List CliIx) (extra : List (Pubkey × Nat)) : Prop where
  run : ∃ amt start mid finish, RebalShape wallet src out start mid finish ∧
    mid.flatMap CliIx.spends = ((J.cfg.findAta wallet src.owner src.key).1, amt) :: extra ∧
    ∀ {env : Env J.cfg} {tx : TxInfo} {accs : List Acc} {w' : World}, SeenAs start.accs accs → env.Quiet →
      processInstruction J.cfg L env tx w J.cfg.programId accs start.data = .ok w' →
      TakenOut J.cfg w w' src (J.cfg.findAta wallet src.owner src.key).1 amt ∧ Asked J.cfg w w' src amt arg ∧
        (accs[7]?).map Acc.key = some (J.cfg.findAta J.cfg.poolState dst.owner dst.key).1
  into : ∀ x ∈ out, ∀ d ∈ x.paysInto, d = (J.cfg.findAta J.cfg.poolState dst.owner dst.key).1

/-- The argument is a u64. -/
def AmtArg.Fits : AmtArg → Prop
  | .amt n => n < U64
  | .all => True

/-! ### Proofs -/

section
variable {J : JupCfg} {L : RatioLib} {S : SPool} {w w' : World} {env : Env J.cfg} {tx : TxInfo} {accs : List Acc}

theorem SeenAs.at {as bs : List Acc} (h : SeenAs as bs) {i : Nat} {a b : Acc} (ha : as[i]? = some a) (hb : bs[i]? = some b) : b.key = a.key := by
  induction h generalizing i with
  | nil => cases ha
  | cons e _ ih =>
    cases i with
    | zero => simp only [List.getElem?_cons_zero, Option.some.injEq] at ha hb; subst ha hb; exact e.key
    | succ i => simp only [List.getElem?_cons_succ] at ha hb; exact ih ha hb

theorem resolve_ok {src : MintAcc} {arg : AmtArg} {amt : Nat} (hr : Reachable J.cfg L w)
    (h : arg.resolve J.cfg w.led.tok src = .ok amt) (hf : arg.Fits) :
    amt < U64 ∧ (∀ n, arg = .amt n → amt = n) ∧ (arg = .all → amt = bal w.led (J.cfg.findAta J.cfg.poolState src.owner src.key).1) := by
  cases arg with
  | amt n =>
    simp only [AmtArg.resolve, pure_ok] at h; subst h
    exact ⟨hf, fun _ e => (by injection e), fun e => (by cases e)⟩
  | all =>
    simp only [AmtArg.resolve, bind_ok, okOr_ok, pure_ok] at h
    obtain ⟨a, ha, rfl⟩ := h
    exact ⟨hr.inv.wf.tok_u64 _ _ ha, fun _ e => (by cases e), fun _ => (bal_some ha).symm⟩

/-- The addresses the client derives are the ones the program accepts. -/
theorem rebal_start {withdrawTo wallet : Pubkey} {src dst : MintAcc} {amt : Nat} {sm dm : List Acc} {start finish : TopIx} {arg : AmtArg}
    (h : rebalIxs J S withdrawTo src dst amt sm dm = .ok (start, finish)) (hr : Reachable J.cfg L w)
    (ha : arg.resolve J.cfg w.led.tok src = .ok amt) (hf : arg.Fits)
    (hw : withdrawTo = (J.cfg.findAta wallet src.owner src.key).1) (hne : wallet ≠ J.cfg.poolState) (hs : SeenAs start.accs accs)
    (hq : env.Quiet) (hrun : processInstruction J.cfg L env tx w J.cfg.programId accs start.data = .ok w') :
    TakenOut J.cfg w w' src withdrawTo amt ∧ Asked J.cfg w w' src amt arg ∧
      (accs[7]?).map Acc.key = some (J.cfg.findAta J.cfg.poolState dst.owner dst.key).1 := by
  obtain ⟨hu, h1, h2⟩ := resolve_ok hr ha hf
  obtain ⟨p, lsts, i, j, s, d, sr, dr, -, -, hi, hj, hsr, hdr, -, -, hdec, -, -, haccs, -⟩ := rebalIxs_ok h hu
  simp only [processInstruction, bind_ok, require_ok, exists_const] at hrun
  obtain ⟨-, ix, hix, hrun⟩ := hrun
  rw [hdec] at hix; injection hix with hix; subst hix
  obtain ⟨p', ps, pd, auth, srcRes, dstRes, dest, _, _, _, _, _, hp, -, -, hbal, -⟩ := C69_startRebalance hq hrun
  rw [← haccs] at hs
  have e6 : srcRes.key = sr := hs.at rfl hp.pos6
  have e7 : dstRes.key = dr := hs.at rfl hp.pos7
  have e8 : dest.key = withdrawTo := hs.at rfl hp.pos8
  have canon : ∀ {x : LstState} {k : Nat} {m : MintAcc} {t : LstState} {key : Pubkey}, w.ctl.lsts[k]? = some x → ReservesOf J.cfg w x key → t.mint = m.key →
      J.cfg.ata J.cfg.poolState m.owner t.mint t.poolReservesBump = some key → key = (J.cfg.findAta J.cfg.poolState m.owner m.key).1 := by
    intro x k m t key hx hres ht hk
    obtain ⟨mm, hmm, hkey⟩ := hres
    obtain ⟨-, e1, e2⟩ := J.cfg.ata_inj hkey hk
    obtain ⟨m', ra, fa, c1, -, -, -, -, -, c2, -⟩ := C61_canonical hr (List.mem_of_getElem? hx)
    rw [hmm] at c1; injection c1 with c1; subst c1
    rw [c2] at hkey; injection hkey with hkey
    rw [← hkey, ← e1, ← ht, ← e2]
  have r6 : sr = _ := canon hp.srcEntry (e6 ▸ hp.srcReserves) (findLst_ok.1 hi).2.1 hsr
  have r7 : dr = _ := canon hp.dstEntry (e7 ▸ hp.dstReserves) (findLst_ok.1 hj).2.1 hdr
  have hd : withdrawTo ≠ sr := by
    intro e
    rw [hw, r6] at e
    exact hne (J.cfg.ata_inj (J.cfg.findAta_ata wallet src.owner src.key) (e ▸ J.cfg.findAta_ata J.cfg.poolState src.owner src.key)).1
  rw [e6, e8] at hbal
  replace hbal : ∀ k, bal w'.led k + only sr amt k = bal w.led k + only withdrawTo amt k := hbal
  have b1 := hbal sr
  have b2 := hbal withdrawTo
  rw [only_self, only_ne _ (Ne.symm hd)] at b1
  rw [only_self, only_ne _ hd] at b2
  refine ⟨⟨by rw [← r6]; omega, by omega, ?_⟩, ?_, by rw [hp.pos7]; exact congrArg some (e7.trans r7)⟩
  · intro k k1 k2
    have := hbal k
    rw [← r6] at k1
    rw [only_ne _ k1, only_ne _ k2] at this
    omega
  · cases arg with
    | amt n => exact h1 n rfl
    | all =>
      have h3 := h2 rfl
      refine ⟨h3, ?_⟩
      have h3 : amt = bal w.led sr := by rw [r6]; exact h3
      rw [← r6]
      omega

theorem openIxs_mem {fetch : Pubkey → Option TokenAcc} {wallet : Pubkey} {src : MintAcc} {x : CliIx} (h : x ∈ openIxs J fetch wallet src) :
    x = .createAta wallet wallet src.key src.owner := by
  unfold openIxs at h
  split at h
  · simpa using h
  · simp at h

theorem openIxs_spends (fetch : Pubkey → Option TokenAcc) (wallet : Pubkey) (src : MintAcc) :
    (openIxs J fetch wallet src).flatMap CliIx.spends = [] ∧ (openIxs J fetch wallet src).flatMap CliIx.paysInto = [] := by
  unfold openIxs; split <;> exact ⟨rfl, rfl⟩

theorem subsidyIxs_ok {wallet dest : Pubkey} {e : SanctumLst} {n : Nat} {xs : List CliIx} (h : subsidyIxs J wallet e dest n = .ok xs)
    (hc : checkSubsidy n ((w.led.tok (J.cfg.findAta wallet e.tokenProgram e.mint).1).map TokenAcc.amount) = .ok ()) :
    Affords J.cfg w wallet e (xs.flatMap CliIx.spends) ∧ (∀ d ∈ xs.flatMap CliIx.paysInto, d = dest) ∧ (∀ x ∈ xs, x.signers = [wallet]) ∧
      ∀ x ∈ xs, ∀ ix, x ≠ .start ix ∧ x ≠ .finish ix := by
  simp only [subsidyIxs, bind_ok, require_ok, exists_const, pure_ok] at h
  obtain ⟨-, rfl⟩ := h
  by_cases hn : n = 0
  · simp [hn, Affords]
  · rw [if_neg hn]
    refine ⟨⟨by simp [CliIx.spends], ?_⟩, by simp [CliIx.paysInto], by simp [CliIx.signers], by simp⟩
    intro x hx
    simp only [List.flatMap_cons, CliIx.spends, List.flatMap_nil, List.append_nil, List.mem_singleton] at hx
    subst hx
    refine ⟨rfl, by show 0 < n; omega, ?_⟩
    show n ≤ bal w.led (J.cfg.findAta wallet e.tokenProgram e.mint).1
    cases hf : w.led.tok (J.cfg.findAta wallet e.tokenProgram e.mint).1 with
    | none => rw [hf] at hc; simp only [Option.map_none, checkSubsidy, require_ok] at hc; exact absurd hc hn
    | some acc => rw [hf] at hc; simp only [Option.map_some, checkSubsidy, require_ok] at hc; rw [bal_some hf]; exact hc

/-- Only the rebalance authority signs the two instructions of the controller. -/
theorem rebalIxs_signers {withdrawTo auth : Pubkey} {src dst : MintAcc} {amt : Nat} {sm dm : List Acc} {start finish : TopIx}
    (h : rebalIxs J S withdrawTo src dst amt sm dm = .ok (start, finish)) (ha : amt < U64) (hauth : checkRebalAuth S auth = .ok ())
    (h0 : 1 ≤ sm.length) (hs : ∀ a ∈ sm, a.signer = false) (hd : ∀ a ∈ dm, a.signer = false) :
    (CliIx.start start).signers = [auth] ∧ (CliIx.finish finish).signers = [auth] := by
  obtain ⟨p, lsts, i, j, s, d, sr, dr, hp, -, -, -, -, -, -, -, -, -, -, hst, hfin⟩ := rebalIxs_ok h ha
  have hfin := hfin h0
  simp only [checkRebalAuth, bind_ok, require_ok] at hauth
  obtain ⟨p', hp', rfl⟩ := hauth
  rw [hp] at hp'; injection hp' with hp'; subst hp'
  have e1 : (sm.drop 1).filter (·.signer) = [] := List.filter_eq_nil_iff.2 fun a h => by simp [hs a (List.mem_of_mem_drop h)]
  have e2 : (dm.drop 1).filter (·.signer) = [] := List.filter_eq_nil_iff.2 fun a h => by simp [hd a (List.mem_of_mem_drop h)]
  constructor
  · rw [CliIx.signers, ← hst]
    simp [StartKeys.metas, sgMeta, wrMeta, roMeta, List.filter_append, e1, e2, -List.drop_one]
  · rw [CliIx.signers, ← hfin]
    simp [EndKeys.metas, sgMeta, wrMeta, roMeta, List.filter_append, e2, -List.drop_one]

theorem wsol_ro : ∀ a ∈ KnownCalc.wsol.ixAccounts J, a.signer = false := by simp [KnownCalc.ixAccounts, roMeta]

end

section
variable {J : JupCfg} {L : RatioLib} {S : SPool} {w : World}

/-- C93: `rebal-sol`. If the StartRebalance of its transaction executes, it takes exactly what the user asked for out of the pool's wrapped SOL (with `all`, nothing is left)
and puts it into the payer's associated token account. Between StartRebalance and EndRebalance, all of it and no more is staked; the payer pays at most a subsidy it has; the
new tokens and the subsidy go to the pool's reserves of the LST, the account the controller looks at. -/
theorem C93_rebalSol {auth wallet : Pubkey} {e : SanctumLst} {arg : AmtArg} {quote : Nat → R Nat} {out : List CliIx}
    (h : rebalSolTx J L S auth wallet e arg quote w.led.tok = .ok out) (hr : Reachable J.cfg L w) (hf : arg.Fits) (hne : wallet ≠ J.cfg.poolState) :
    ∃ extra, CmdOk J L w wallet ⟨J.wsolMint, J.cfg.splToken⟩ ⟨e.mint, e.tokenProgram⟩ arg out extra ∧ Affords J.cfg w wallet e extra := by
  simp only [rebalSolTx, rebalSol, bind_ok, Prod.exists, pure_ok] at h
  obtain ⟨amt, ha, minted, -, plan, ⟨_, -, _, _, -, _, -, _, hc, _, -, st, fin, hix, rfl⟩, sub, hsub, rfl⟩ := h
  obtain ⟨s1, s2, s3, s4⟩ := subsidyIxs_ok hsub hc
  refine ⟨sub.flatMap CliIx.spends, ⟨⟨amt, st, .depositSol wallet (J.cfg.findAta wallet J.cfg.splToken J.wsolMint).1 (J.cfg.findAta J.cfg.poolState e.tokenProgram e.mint).1 amt :: sub, fin, ⟨⟨openIxs J w.led.tok wallet _, ?_, fun x => openIxs_mem⟩, ?_⟩, ?_, ?_⟩, ?_⟩, s1⟩
  · simp only [List.append_assoc, List.cons_append, List.nil_append]
  · intro x hx ix
    rcases List.mem_cons.1 hx with rfl | hx
    · simp
    · exact s4 x hx ix
  · rfl
  · intro env tx accs w' hs hq hrun
    exact rebal_start hix hr ha hf rfl hne hs hq hrun
  · intro x hx d hd
    simp only [List.mem_append, List.mem_cons, List.not_mem_nil, or_false] at hx
    rcases hx with (hx | rfl | rfl | hx) | rfl
    · rw [openIxs_mem hx] at hd; cases hd
    · cases hd
    · simpa [CliIx.paysInto] using hd
    · exact s2 d (List.mem_flatMap.2 ⟨x, hx, hd⟩)
    · cases hd

/-- C93: `rebal-withdraw-sol`, the same for the LST it withdraws; the subsidy is paid in SOL, from no token account. -/
theorem C93_rebalWithdrawSol {auth wallet payer : Pubkey} {e : SanctumLst} {arg : AmtArg} {q : SolPool} {payerSol : Option Nat} {out : List CliIx}
    (h : rebalWithdrawSolTx J L S auth wallet payer e arg q payerSol w.led.tok = .ok out) (hr : Reachable J.cfg L w) (hf : arg.Fits)
    (hne : wallet ≠ J.cfg.poolState) :
    CmdOk J L w wallet ⟨e.mint, e.tokenProgram⟩ ⟨J.wsolMint, J.cfg.splToken⟩ arg out [] ∧
      ∀ p d n, CliIx.solTransfer p d n ∈ out → p = payer ∧ 0 < n ∧ ∃ b, payerSol = some b ∧ n ≤ b := by
  simp only [rebalWithdrawSolTx, rebalWithdrawSolCmd, rebalWithdrawSol, bind_ok, Prod.exists, pure_ok] at h
  obtain ⟨amt, ha, plan, ⟨wd, -, _, -, _, _, -, _, -, _, -, _, -, _, -, rq, -, _, hc, _, -, st, fin, hix, rfl⟩, rfl⟩ := h
  refine ⟨⟨⟨amt, st, .withdrawSol wallet (J.cfg.findAta wallet e.tokenProgram e.mint).1 (J.cfg.findAta J.cfg.poolState J.cfg.splToken J.wsolMint).1 amt ::
      ((if rq - wd = 0 then [] else [.solTransfer payer (J.cfg.findAta J.cfg.poolState J.cfg.splToken J.wsolMint).1 (rq - wd)]) ++
        [.syncNative (J.cfg.findAta J.cfg.poolState J.cfg.splToken J.wsolMint).1]), fin, ⟨⟨openIxs J w.led.tok wallet _, ?_, fun x => openIxs_mem⟩, ?_⟩, ?_, ?_⟩, ?_⟩, ?_⟩
  · simp only [List.append_assoc, List.cons_append, List.nil_append]
  · intro x hx ix
    split at hx <;> simp at hx
    · rcases hx with rfl | rfl <;> simp
    · rcases hx with rfl | rfl | rfl <;> simp
  · split <;> rfl
  · intro env tx accs w' hs hq hrun
    exact rebal_start hix hr ha hf rfl hne hs hq hrun
  · intro x hx d hd
    simp only [List.mem_append, List.mem_cons, List.not_mem_nil, or_false] at hx
    rcases hx with (hx | rfl | rfl | hx | rfl) | rfl
    · rw [openIxs_mem hx] at hd; cases hd
    · cases hd
    · simpa [CliIx.paysInto] using hd
    · split at hx
      · cases hx
      · simp only [List.mem_singleton] at hx; subst hx; simpa [CliIx.paysInto] using hd
    · simpa [CliIx.paysInto] using hd
    · cases hd
  · intro p d n hx
    simp only [List.mem_append, List.mem_cons, List.not_mem_nil, or_false] at hx
    rcases hx with (hx | hx | hx | hx | hx) | hx
    · cases openIxs_mem hx
    · cases hx
    · cases hx
    · split at hx
      · cases hx
      · rename_i hn
        simp only [List.mem_singleton, CliIx.solTransfer.injEq] at hx
        obtain ⟨rfl, -, rfl⟩ := hx
        refine ⟨rfl, Nat.pos_of_ne_zero hn, ?_⟩
        cases payerSol with
        | none => simp only [checkSubsidy, require_ok] at hc; exact absurd hc hn
        | some b => simp only [checkSubsidy, require_ok] at hc; exact ⟨b, rfl, hc⟩
    · cases hx
    · cases hx

/-- C93: `rebal-stake`, the same; moreover the stake goes through one stake account, created with the rent, filled, and deposited, in that order. -/
theorem C93_rebalStake {auth wallet : Pubkey} {a b : SanctumLst} {arg : AmtArg} {r : StakeRoute} {bridge : Pubkey} {out : List CliIx}
    (h : rebalStakeCmd J L S auth wallet a b arg r w.led.tok bridge = .ok out) (hr : Reachable J.cfg L w) (hf : arg.Fits) (hne : wallet ≠ J.cfg.poolState) :
    ∃ extra, CmdOk J L w wallet ⟨a.mint, a.tokenProgram⟩ ⟨b.mint, b.tokenProgram⟩ arg out extra ∧ Affords J.cfg w wallet b extra ∧
      ∃ amt wsq dsq, firstRoute r.deposit (r.withdraws amt) = .ok (wsq, dsq) ∧ (∀ vs, r.validators = some vs → dsq.voter ∈ vs) ∧
        [CliIx.createStake wallet bridge STAKE_RENT, .withdrawStake wallet bridge wsq.voter (J.cfg.findAta wallet a.tokenProgram a.mint).1 amt,
          .depositStake wallet bridge dsq.voter (J.cfg.findAta J.cfg.poolState b.tokenProgram b.mint).1] <:+: out := by
  simp only [rebalStakeCmd, StakeRoute.depositIxs, rebalStake, bind_ok, Prod.exists, pure_ok, require_ok, exists_const] at h
  obtain ⟨amt, ha, wsq, dsq, hroute, plan, ⟨_, -, _, -, _, hc, _, -, _, -, st, fin, hix, rfl⟩, dep, ⟨hv, rfl⟩, sub, hsub, rfl⟩ := h
  obtain ⟨s1, s2, s3, s4⟩ := subsidyIxs_ok hsub hc
  refine ⟨sub.flatMap CliIx.spends, ⟨⟨amt, st, .createStake wallet bridge STAKE_RENT :: .withdrawStake wallet bridge wsq.voter (J.cfg.findAta wallet a.tokenProgram a.mint).1 amt ::
    .depositStake wallet bridge dsq.voter (J.cfg.findAta J.cfg.poolState b.tokenProgram b.mint).1 :: sub, fin, ⟨⟨openIxs J w.led.tok wallet _, ?_, fun x => openIxs_mem⟩, ?_⟩, ?_, ?_⟩, ?_⟩, s1,
    amt, wsq, dsq, hroute, ?_, ⟨openIxs J w.led.tok wallet ⟨a.mint, a.tokenProgram⟩ ++ [.start st], sub ++ [.finish fin], ?_⟩⟩
  · simp only [List.append_assoc, List.cons_append, List.nil_append, withdrawStakeIxs]
  · intro x hx ix
    simp only [List.mem_cons] at hx
    rcases hx with rfl | rfl | rfl | hx
    · simp
    · simp
    · simp
    · exact s4 x hx ix
  · rfl
  · intro env tx accs w' hs hq hrun
    exact rebal_start hix hr ha hf rfl hne hs hq hrun
  · intro x hx d hd
    simp only [withdrawStakeIxs, List.mem_append, List.mem_cons, List.not_mem_nil, or_false] at hx
    rcases hx with (hx | rfl | ((rfl | rfl) | rfl) | hx) | rfl
    · rw [openIxs_mem hx] at hd; cases hd
    · cases hd
    · cases hd
    · cases hd
    · simpa [CliIx.paysInto] using hd
    · exact s2 d (List.mem_flatMap.2 ⟨x, hx, hd⟩)
    · cases hd
  · intro vs hvs
    rw [hvs] at hv
    simpa using hv
  · simp only [List.append_assoc, List.cons_append, List.nil_append, withdrawStakeIxs]

/-- C95: the transactions of `rebal-sol` and `rebal-stake` need no signatures but the payer's and the rebalance authority's, the two the commands sign with. -/
theorem C95_rebalSol {auth wallet : Pubkey} {e : SanctumLst} {arg : AmtArg} {quote : Nat → R Nat} {out : List CliIx}
    (h : rebalSolTx J L S auth wallet e arg quote w.led.tok = .ok out) (hr : Reachable J.cfg L w) (hf : arg.Fits) :
    ∀ x ∈ out, ∀ k ∈ x.signers, k = wallet ∨ k = auth := by
  simp only [rebalSolTx, rebalSol, bind_ok, Prod.exists, pure_ok] at h
  obtain ⟨amt, ha, minted, -, plan, ⟨_, hauth, _, _, -, _, -, _, hc, dm, hdm, st, fin, hix, rfl⟩, sub, hsub, rfl⟩ := h
  obtain ⟨-, -, s3, -⟩ := subsidyIxs_ok hsub hc
  obtain ⟨g1, g2⟩ := rebalIxs_signers hix (resolve_ok hr ha hf).1 hauth (by simp [KnownCalc.ixAccounts]) wsol_ro (calcMetas_ro hdm).2
  intro x hx k hk
  simp only [List.mem_append, List.mem_cons, List.not_mem_nil, or_false] at hx
  rcases hx with (hx | rfl | rfl | hx) | rfl
  · rw [openIxs_mem hx] at hk; exact .inl (by simpa [CliIx.signers] using hk)
  · rw [g1] at hk; exact .inr (by simpa using hk)
  · exact .inl (by simpa [CliIx.signers] using hk)
  · rw [s3 x hx] at hk; exact .inl (by simpa using hk)
  · rw [g2] at hk; exact .inr (by simpa using hk)

theorem C95_rebalStake {auth wallet : Pubkey} {a b : SanctumLst} {arg : AmtArg} {r : StakeRoute} {bridge : Pubkey} {out : List CliIx}
    (h : rebalStakeCmd J L S auth wallet a b arg r w.led.tok bridge = .ok out) (hr : Reachable J.cfg L w) (hf : arg.Fits) :
    ∀ x ∈ out, ∀ k ∈ x.signers, k = wallet ∨ k = auth := by
  simp only [rebalStakeCmd, StakeRoute.depositIxs, rebalStake, bind_ok, Prod.exists, pure_ok, require_ok, exists_const] at h
  obtain ⟨amt, ha, wsq, dsq, -, plan, ⟨_, hauth, _, -, _, hc, sm, hsm, dm, hdm, st, fin, hix, rfl⟩, dep, ⟨hv, rfl⟩, sub, hsub, rfl⟩ := h
  obtain ⟨-, -, s3, -⟩ := subsidyIxs_ok hsub hc
  obtain ⟨g1, g2⟩ := rebalIxs_signers hix (resolve_ok hr ha hf).1 hauth (calcMetas_pos hsm) (calcMetas_ro hsm).2 (calcMetas_ro hdm).2
  intro x hx k hk
  simp only [withdrawStakeIxs, List.mem_append, List.mem_cons, List.not_mem_nil, or_false] at hx
  rcases hx with (hx | rfl | ((rfl | rfl) | rfl) | hx) | rfl
  · rw [openIxs_mem hx] at hk; exact .inl (by simpa [CliIx.signers] using hk)
  · rw [g1] at hk; exact .inr (by simpa using hk)
  · exact .inl (by simpa [CliIx.signers] using hk)
  · exact .inl (by simpa [CliIx.signers] using hk)
  · exact .inl (by simpa [CliIx.signers] using hk)
  · rw [s3 x hx] at hk; exact .inl (by simpa using hk)
  · rw [g2] at hk; exact .inr (by simpa using hk)

/-- C95: the transaction of `rebal-withdraw-sol` needs, besides those two, the subsidy payer's signature exactly if it contains the subsidy payer's transfer. (The command
does not sign for the subsidy payer: with another subsidy payer and a subsidy to pay, its transaction cannot be sent.) -/
theorem C95_rebalWithdrawSol {auth wallet payer : Pubkey} {e : SanctumLst} {arg : AmtArg} {q : SolPool} {payerSol : Option Nat} {out : List CliIx}
    (h : rebalWithdrawSolTx J L S auth wallet payer e arg q payerSol w.led.tok = .ok out) (hr : Reachable J.cfg L w) (hf : arg.Fits) :
    (∀ x ∈ out, ∀ k ∈ x.signers, k = wallet ∨ k = auth) ↔ (payer = wallet ∨ payer = auth ∨ ∀ d n, CliIx.solTransfer payer d n ∉ out) := by
  simp only [rebalWithdrawSolTx, rebalWithdrawSolCmd, rebalWithdrawSol, bind_ok, Prod.exists, pure_ok] at h
  obtain ⟨amt, ha, plan, ⟨_, -, _, hauth, _, _, -, _, -, _, -, _, -, _, -, _, -, _, hc, sm, hsm, st, fin, hix, rfl⟩, rfl⟩ := h
  obtain ⟨g1, g2⟩ := rebalIxs_signers hix (resolve_ok hr ha hf).1 hauth (calcMetas_pos hsm) (calcMetas_ro hsm).2 wsol_ro
  constructor
  · intro H
    by_cases e1 : payer = wallet
    · exact .inl e1
    by_cases e2 : payer = auth
    · exact .inr (.inl e2)
    refine .inr (.inr fun d n hm => ?_)
    rcases H _ hm payer (by simp [CliIx.signers]) with e | e
    · exact e1 e
    · exact e2 e
  · intro H x hx k hk
    have hx0 := hx
    simp only [List.mem_append, List.mem_cons, List.not_mem_nil, or_false] at hx
    rcases hx with (hx | rfl | rfl | hx | rfl) | rfl
    · rw [openIxs_mem hx] at hk; exact .inl (by simpa [CliIx.signers] using hk)
    · rw [g1] at hk; exact .inr (by simpa using hk)
    · exact .inl (by simpa [CliIx.signers] using hk)
    · split at hx
      · cases hx
      · simp only [List.mem_singleton] at hx; subst hx
        have hk : k = payer := by simpa [CliIx.signers] using hk
        subst hk
        rcases H with e | e | e
        · exact .inl e
        · exact .inr e
        · exact absurd hx0 (e _ _)
    · cases hk
    · rw [g2] at hk; exact .inr (by simpa using hk)

theorem subsidyIxs_transfer {wallet dest : Pubkey} {e : SanctumLst} {n : Nat} {xs : List CliIx} (h : subsidyIxs J wallet e dest n = .ok xs) {s a m d : Pubkey} {k : Nat}
    (hx : .transfer s a m d k ∈ xs) : e.tokenProgram = J.cfg.splToken ∧ k = n ∧ 0 < k := by
  simp only [subsidyIxs, bind_ok, require_ok, exists_const, pure_ok] at h
  obtain ⟨hor, rfl⟩ := h
  split at hx
  · cases hx
  · rename_i hn
    simp only [List.mem_singleton, CliIx.transfer.injEq] at hx
    obtain ⟨-, -, -, -, rfl⟩ := hx
    rcases hor with hor | hor
    · exact absurd hor hn
    · exact ⟨hor, rfl, Nat.pos_of_ne_zero hn⟩

/-- C93: a subsidy is only paid in an LST of the original token program, and never an empty one: with another token program the commands stop before sending anything. -/
theorem C93_subsidy_sol {auth wallet : Pubkey} {e : SanctumLst} {arg : AmtArg} {quote : Nat → R Nat} {fetch : Pubkey → Option TokenAcc} {out : List CliIx}
    (h : rebalSolTx J L S auth wallet e arg quote fetch = .ok out) {s a m d : Pubkey} {n : Nat} (hx : .transfer s a m d n ∈ out) :
    e.tokenProgram = J.cfg.splToken ∧ 0 < n := by
  simp only [rebalSolTx, bind_ok, pure_ok] at h
  obtain ⟨amt, -, minted, -, plan, -, sub, hsub, rfl⟩ := h
  simp only [List.mem_append, List.mem_cons, List.not_mem_nil, or_false, reduceCtorEq, false_or] at hx
  rcases hx with hx | hx
  · cases openIxs_mem hx
  · exact ⟨(subsidyIxs_transfer hsub hx).1, (subsidyIxs_transfer hsub hx).2.2⟩

/-- The same for `rebal-stake`. -/
theorem C93_subsidy_stake {auth wallet : Pubkey} {a b : SanctumLst} {arg : AmtArg} {r : StakeRoute} {fetch : Pubkey → Option TokenAcc} {bridge : Pubkey} {out : List CliIx}
    (h : rebalStakeCmd J L S auth wallet a b arg r fetch bridge = .ok out) {s x m d : Pubkey} {n : Nat} (hx : .transfer s x m d n ∈ out) :
    b.tokenProgram = J.cfg.splToken ∧ 0 < n := by
  simp only [rebalStakeCmd, StakeRoute.depositIxs, bind_ok, Prod.exists, pure_ok, require_ok, exists_const] at h
  obtain ⟨amt, -, wsq, dsq, -, plan, -, dep, ⟨-, rfl⟩, sub, hsub, rfl⟩ := h
  simp only [withdrawStakeIxs, List.mem_append, List.mem_cons, List.not_mem_nil, or_false, reduceCtorEq, false_or] at hx
  rcases hx with hx | hx
  · cases openIxs_mem hx
  · exact ⟨(subsidyIxs_transfer hsub hx).1, (subsidyIxs_transfer hsub hx).2.2⟩

end

/-- The transaction has one StartRebalance. -/
theorem RebalShape.start_eq {wallet : Pubkey} {src : MintAcc} {out mid : List CliIx} {start finish ix : TopIx} (h : RebalShape wallet src out start mid finish)
    (hm : CliIx.start ix ∈ out) : ix = start := by
  obtain ⟨pre, rfl, hpre⟩ := h.shape
  simp only [List.mem_append, List.mem_cons, List.not_mem_nil, or_false, CliIx.start.injEq] at hm
  rcases hm with hm | hm | hm | hm
  · cases hpre _ hm
  · exact hm
  · exact absurd rfl (h.foreign _ hm ix).1
  · cases hm

/-- The quote with the prefunded rent counted in: the stake the pool gives is the active part, the rent comes on top. -/
def WithdrawQuote.Funds (q q' : WithdrawQuote) : Prop :=
  q'.lamportsStaked = q.lamportsOut ∧ q'.lamportsOut = q.lamportsOut + STAKE_RENT ∧ q'.voter = q.voter

theorem prefund_ok {q q' : WithdrawQuote} : q.prefund = .ok q' ↔ q.Funds q' ∧ q'.lamportsOut < U64 := by
  obtain ⟨o, s, v⟩ := q'
  simp only [WithdrawQuote.prefund, bind_ok, addU64_ok, pure_ok, WithdrawQuote.Funds, WithdrawQuote.mk.injEq]
  constructor
  · rintro ⟨n, ⟨rfl, hn⟩, rfl, rfl, rfl⟩; exact ⟨⟨rfl, rfl, rfl⟩, hn⟩
  · rintro ⟨⟨rfl, rfl, rfl⟩, hn⟩; exact ⟨_, ⟨rfl, hn⟩, rfl, rfl, rfl⟩

/-- C93: the route is the first of the offered stake accounts for which the other pool, counting the prefunded rent, mints something; all before it mint nothing. -/
theorem C93_route {deposit : WithdrawQuote → DepositQuote} {qs : List WithdrawQuote} {q' : WithdrawQuote} {d : DepositQuote} :
    firstRoute deposit qs = .ok (q', d) ↔
      ∃ pre q post, qs = pre ++ q :: post ∧ q.Funds q' ∧ q'.lamportsOut < U64 ∧ d = deposit q' ∧ d.tokensOut ≠ 0 ∧
        ∀ x ∈ pre, ∃ x', WithdrawQuote.Funds x x' ∧ x'.lamportsOut < U64 ∧ (deposit x').tokensOut = 0 := by
  induction qs with
  | nil => simp [firstRoute]
  | cons x xs ih =>
    simp only [firstRoute, bind_ok, prefund_ok]
    constructor
    · rintro ⟨x', ⟨hx, hu⟩, h⟩
      split at h
      · rename_i hne
        simp only [pure_ok, Prod.mk.injEq] at h
        obtain ⟨rfl, rfl⟩ := h
        exact ⟨[], x, xs, rfl, hx, hu, rfl, hne, by simp⟩
      · rename_i hz
        obtain ⟨pre, q, post, rfl, h1, h2, h3, h4, h5⟩ := ih.1 h
        refine ⟨x :: pre, q, post, rfl, h1, h2, h3, h4, ?_⟩
        intro y hy
        rcases List.mem_cons.1 hy with rfl | hy
        · exact ⟨x', hx, hu, by simpa using hz⟩
        · exact h5 y hy
    · rintro ⟨pre, q, post, e, h1, h2, h3, h4, h5⟩
      cases pre with
      | nil =>
        simp only [List.nil_append, List.cons.injEq] at e
        obtain ⟨rfl, rfl⟩ := e
        refine ⟨q', ⟨h1, h2⟩, ?_⟩
        rw [if_pos (h3 ▸ h4), h3]; rfl
      | cons y pre =>
        simp only [List.cons_append, List.cons.injEq] at e
        obtain ⟨rfl, e⟩ := e
        obtain ⟨y', g1, g2, g3⟩ := h5 x (by simp)
        refine ⟨y', ⟨g1, g2⟩, ?_⟩
        rw [if_neg (by simpa using g3)]
        exact ih.2 ⟨pre, q, post, e, h1, h2, h3, h4, fun z hz => h5 z (by simp [hz])⟩

/-- C93: without overflow, no route is found only if every offered stake account mints nothing. -/
theorem C93_no_route {deposit : WithdrawQuote → DepositQuote} {qs : List WithdrawQuote} (hu : ∀ q ∈ qs, q.lamportsOut + STAKE_RENT < U64) :
    (∃ r, firstRoute deposit qs = .ok r) ↔ ∃ q ∈ qs, (deposit ⟨q.lamportsOut + STAKE_RENT, q.lamportsOut, q.voter⟩).tokensOut ≠ 0 := by
  induction qs with
  | nil => simp [firstRoute]
  | cons x xs ih =>
    have hx : x.prefund = .ok ⟨x.lamportsOut + STAKE_RENT, x.lamportsOut, x.voter⟩ := prefund_ok.2 ⟨⟨rfl, rfl, rfl⟩, hu x (by simp)⟩
    simp only [firstRoute, bind_ok, hx, Except.ok.injEq, exists_eq_left', List.mem_cons, exists_eq_or_imp]
    by_cases hz : (deposit ⟨x.lamportsOut + STAKE_RENT, x.lamportsOut, x.voter⟩).tokensOut ≠ 0
    · simp only [if_pos hz, pure_ok, exists_eq', true_iff]; exact .inl hz
    · rw [if_neg hz]
      simp only [hz, false_or]
      exact ih fun q hq => hu q (by simp [hq])

/-- C93: `all`, in any case of letters, is the only argument that means everything. -/
theorem C93_parse {sol : String → R Nat} {s : String} : AmtArg.parse sol s = .ok .all ↔ s.toLower = "all" := by
  unfold AmtArg.parse
  split
  · rename_i h; simp only [pure_ok, h]
  · simp only [bind_ok, pure_ok]
    constructor
    · rintro ⟨n, -, e⟩; cases e
    · intro e; contradiction

namespace Ex

/-- Another program opens the associated token account of a wallet and puts tokens into it. -/
def openAta (wallet mint : Pubkey) (n : Nat) (l : Ledger) : Ledger :=
  if l.tok (ataKey wallet 8 mint) = none ∧ n < U64 then l.setTok (ataKey wallet 8 mint) (some ⟨8, mint, wallet, n⟩) else l

theorem openAta_ok (wallet mint : Pubkey) (n : Nat) (l : Ledger) : l.ExtOk cfg (openAta wallet mint n l) := by
  unfold openAta
  split
  · rename_i h
    obtain ⟨hn, hu⟩ := h
    refine ⟨fun hw => ⟨?_, hw.mint_u64, ?_⟩, ?_, fun k m h => ⟨m, h, rfl, rfl⟩, ?_, ?_, fun _ h => h⟩
    · intro k x hx
      simp only [Ledger.setTok, upd] at hx
      split at hx
      · injection hx with hx; subst hx; exact hu
      · exact hw.tok_u64 _ _ hx
    · intro w p m b' k x hk hx
      simp only [Ledger.setTok, upd] at hx
      split at hx
      · rename_i e; subst e; injection hx with hx; subst hx
        obtain ⟨-, e1, e2⟩ := cfg.ata_inj hk (show cfg.ata wallet 8 mint 255 = _ from rfl)
        exact ⟨e2.symm, e1.symm⟩
      · exact hw.ata w p m b' k x hk hx
    · intro k a ha _
      refine ⟨a.amount, Nat.le_refl _, ?_⟩
      simp only [Ledger.setTok, upd]
      split
      · rename_i e; subst e; rw [hn] at ha; cases ha
      · exact ha
    · intro k m m' h h' ha
      have : some m = some m' := h.symm.trans h'
      injection this with this; subst this
      exact ⟨ha, Nat.le_refl _⟩
    · intro k m m' h h' ha
      have : some m = some m' := h.symm.trans h'
      injection this with this; subst this
      exact ha
  · exact ⟨id, fun k a h _ => ⟨a.amount, Nat.le_refl _, h⟩, fun k m h => ⟨m, h, rfl, rfl⟩,
      fun k m m' h h' ha => by
        have : some m = some m' := h.symm.trans h'
        injection this with this; subst this
        exact ⟨ha, Nat.le_refl _⟩,
      fun k m m' h h' ha => by
        have : some m = some m' := h.symm.trans h'
        injection this with this; subst this
        exact ha, fun _ h => h⟩

/-- The example pool after user 40 opened its associated token accounts. -/
def routeTx : Tx cfg := [.foreign ⟨77, [], []⟩ (by decide) [.ext (openAta 40 21 0) (openAta_ok _ _ _), .ext (openAta 40 22 500) (openAta_ok _ _ _)]]
def routeW : World := (Tx.run .ex (st 7) routeTx).toOption.getD (st 7)
theorem routeTx_ok : Tx.run .ex (st 7) routeTx = .ok routeW := by
  obtain ⟨x, hx⟩ := ok_of_isSome (x := Tx.run .ex (st 7) routeTx) (by decide +kernel)
  rw [routeW, hx]; rfl
theorem routeW_reachable : Reachable cfg .ex routeW := (st_reachable 7).step routeTx_ok

/-- A pool that offers stake of two validators; the other pool takes only the second. -/
def route : StakeRoute := ⟨fun n => [⟨n, n, 900⟩, ⟨n, n, 901⟩], fun q => ⟨if q.voter = 900 then 0 else q.lamportsStaked * 66 / 100, q.voter⟩, some [901]⟩

def stakeIxs : List CliIx :=
  (rebalStakeCmd jup .ex (cache (st 7)) 6 40 ⟨21, 8, .reservePool⟩ ⟨22, 8, .lido⟩ .all route routeW.led.tok 950).toOption.getD []
theorem stakeIxs_ok : rebalStakeCmd jup .ex (cache (st 7)) 6 40 ⟨21, 8, .reservePool⟩ ⟨22, 8, .lido⟩ .all route routeW.led.tok 950 = .ok stakeIxs := by
  obtain ⟨x, hx⟩ := ok_of_isSome
    (x := rebalStakeCmd jup .ex (cache (st 7)) 6 40 ⟨21, 8, .reservePool⟩ ⟨22, 8, .lido⟩ .all route routeW.led.tok 950) (by decide +kernel)
  rw [stakeIxs, hx]; rfl

/-- A subsidy is sent in it, of LST 22 from the payer's account to the pool's reserves. -/
example : CliIx.transfer 40 243104 22 243065 242 ∈ stakeIxs := by decide +kernel

/-- StartRebalance and EndRebalance of the transaction. -/
def stakeStart : TopIx := (stakeIxs.findSome? fun x => match x with | .start i => some i | _ => none).getD ⟨0, [], []⟩
def stakeFinish : TopIx := (stakeIxs.findSome? fun x => match x with | .finish i => some i | _ => none).getD ⟨0, [], []⟩
theorem stakeStart_mem : CliIx.start stakeStart ∈ stakeIxs := by decide +kernel

theorem stakeStart_runs : ∃ w', processInstruction cfg .ex fenv ⟨[stakeStart, stakeFinish], 0⟩ routeW 13 stakeStart.accs stakeStart.data = .ok w' :=
  ok_of_isSome (by decide +kernel)

/-- The whole of LST 21 leaves the pool. -/
example : ∃ w', processInstruction cfg .ex fenv ⟨[stakeStart, stakeFinish], 0⟩ routeW 13 stakeStart.accs stakeStart.data = .ok w' ∧
    bal routeW.led resA = 36031 ∧ bal w'.led resA = 0 ∧ bal w'.led (ataKey 40 8 21) = 36031 := by
  obtain ⟨w', h⟩ := stakeStart_runs
  refine ⟨w', h, by decide +kernel, ?_⟩
  obtain ⟨_, hc, -⟩ := C93_rebalStake (J := jup) stakeIxs_ok routeW_reachable trivial (by decide)
  obtain ⟨amt, st, mid, fin, hsh, -, hgo⟩ := hc.run
  have hst := hsh.start_eq stakeStart_mem
  rw [hst] at h
  obtain ⟨h1, h2, -⟩ := hgo (.refl _) Env.pure_quiet h
  refine ⟨h2.2, ?_⟩
  have e : amt = 36031 := h2.1.trans (show bal routeW.led resA = 36031 by decide +kernel)
  have g := h1.got
  rw [e] at g
  exact g.trans (congrArg (· + 36031) (show bal routeW.led (ataKey 40 8 21) = 0 by decide +kernel))

/-- The instructions between: rent, all of it to the stake pool, the second validator, the payer's subsidy to the reserves of LST 22. -/
example : (stakeIxs.drop 1).take 4 = [.createStake 40 950 STAKE_RENT, .withdrawStake 40 950 901 (ataKey 40 8 21) 36031, .depositStake 40 950 901 resB,
    .transfer 40 (ataKey 40 8 22) 22 resB 242] := by decide +kernel

/-- `rebal-sol` with everything, and `rebal-withdraw-sol` with another subsidy payer (99): 2001 of LST 22 for 2997 lamports, one short. -/
example : (rebalSolTx jup .ex (cache (st 7)) 6 40 ⟨22, 8, .lido⟩ .all (fun n => .ok (n * 66 / 100)) routeW.led.tok).toOption.map (fun o => (o.drop 1).take 2) =
    some [.depositSol 40 (ataKey 40 8 21) resB 36031, .transfer 40 (ataKey 40 8 22) 22 resB 242] := by decide +kernel

def withdrawIxs : List CliIx :=
  (rebalWithdrawSolTx jup .ex splCache 6 40 99 ⟨22, 8, .spl .spl 750⟩ (.amt 2001) solPool (some 5000) routeW.led.tok).toOption.getD []
theorem withdrawIxs_ok : rebalWithdrawSolTx jup .ex splCache 6 40 99 ⟨22, 8, .spl .spl 750⟩ (.amt 2001) solPool (some 5000) routeW.led.tok = .ok withdrawIxs := by
  obtain ⟨x, hx⟩ := ok_of_isSome
    (x := rebalWithdrawSolTx jup .ex splCache 6 40 99 ⟨22, 8, .spl .spl 750⟩ (.amt 2001) solPool (some 5000) routeW.led.tok) (by decide +kernel)
  rw [withdrawIxs, hx]; rfl

/-- The subsidy payer's signature is needed, and the command does not provide it. -/
example : ¬ ∀ x ∈ withdrawIxs, ∀ k ∈ x.signers, k = 40 ∨ k = 6 := by
  rw [C95_rebalWithdrawSol (J := jup) withdrawIxs_ok routeW_reachable (show 2001 < U64 by decide)]
  rintro (h | h | h)
  · exact absurd h (by decide)
  · exact absurd h (by decide)
  · exact h resA 1 (by decide +kernel)

example : firstRoute route.deposit (route.withdraws 300) = .ok (⟨300 + STAKE_RENT, 300, 901⟩, ⟨198, 901⟩) :=
  C93_route.2 ⟨[⟨300, 300, 900⟩], ⟨300, 300, 901⟩, [], rfl, ⟨rfl, rfl, rfl⟩, by decide +kernel, rfl, by decide,
    fun x hx => ⟨⟨300 + STAKE_RENT, 300, 900⟩, by rw [List.mem_singleton.1 hx]; exact ⟨rfl, rfl, rfl⟩, by decide +kernel, rfl⟩⟩

example : AmtArg.parse (fun _ => .error .panic) "All" = .ok .all := C93_parse.2 (by decide +kernel)

end Ex

end S
