import Verif.Proofs.AdminRuns
import Verif.PureEnv
/-
Effects of every instruction: on the ledger as a list of ledger operations, on the controller's accounts as syncs.
-/
set_option autoImplicit false
namespace S

/-- One change of the ledger. -/
inductive LedOp
  | ext
  | transfer (t : TransferAccs) (n : Nat)
  | mintTo (mint dst tp auth : Pubkey) (n : Nat)
  | burn (mint src tp auth : Pubkey) (n : Nat)
  | close (acc tp auth : Pubkey)
  | setMintAuth (mint tp auth new : Pubkey)
  | setFreezeAuth (mint tp auth new : Pubkey)
  | createAta (acc wallet tp mint : Pubkey)

/-- The effect of one operation, foreign changes being restricted by `E`. -/
def LedOp.RunE (cfg : Cfg) (E : Ledger → Ledger → Prop) (l : Ledger) (op : LedOp) (l' : Ledger) : Prop :=
  match op with
  | .ext => E l l'
  | .transfer t n => S.transfer l t n = .ok l'
  | .mintTo m d tp a n => S.mintTo l m d tp a n = .ok l'
  | .burn m s tp a n => S.burn l m s tp a n = .ok l'
  | .close k tp a => closeToken l k tp a = .ok l'
  | .setMintAuth m tp a n => S.setMintAuth l m tp a n = .ok l'
  | .setFreezeAuth m tp a n => S.setFreezeAuth l m tp a n = .ok l'
  | .createAta k wa tp m => S.createAta cfg l k wa tp m = .ok l'

abbrev LedOp.Run (cfg : Cfg) (l : Ledger) (op : LedOp) (l' : Ledger) : Prop := op.RunE cfg (Ledger.ExtOk cfg) l l'

inductive TraceE (cfg : Cfg) (E : Ledger → Ledger → Prop) : Ledger → List LedOp → Ledger → Prop
  | nil (l : Ledger) : TraceE cfg E l [] l
  | cons {l l1 l2 : Ledger} {op : LedOp} {ops : List LedOp} (h : op.RunE cfg E l l1) (t : TraceE cfg E l1 ops l2) :
    TraceE cfg E l (op :: ops) l2

abbrev Trace (cfg : Cfg) : Ledger → List LedOp → Ledger → Prop := TraceE cfg (Ledger.ExtOk cfg)

theorem TraceE.nil' {cfg : Cfg} {E : Ledger → Ledger → Prop} {l l' : Ledger} (h : l' = l) : TraceE cfg E l [] l' := by
  subst h; exact .nil _

/-- The called programs change the ledger within `E`. -/
structure Env.Within {cfg : Cfg} (env : Env cfg) (E : Ledger → Ledger → Prop) : Prop where
  calcE : ∀ {n w p ms q r l}, env.askCalc n w p ms q = .ok (r, l) → E w.led l
  priceE : ∀ {n w p ms q r l}, env.askPrice n w p ms q = .ok (r, l) → E w.led l

theorem Env.withinExt {cfg : Cfg} (env : Env cfg) : env.Within (Ledger.ExtOk cfg) := ⟨env.calc_ext, env.price_ext⟩

theorem Env.Quiet.within {cfg : Cfg} {env : Env cfg} (h : env.Quiet) : env.Within (fun l l' => l' = l) :=
  ⟨fun e => h.calcF e, fun e => h.priceF e⟩

theorem SyncRun.ext {cfg : Cfg} {env : Env cfg} {n : Nat} {w : World} {res : Pubkey} {c : CalcCpi} {i : Nat}
    {w' : World} {acc : TokenAcc} {r : Range} (h : SyncRun env n w res c i w' acc r) : w.led.ExtOk cfg w'.led :=
  env.calc_ext h.ask

theorem SyncRun.extE {cfg : Cfg} {env : Env cfg} {E : Ledger → Ledger → Prop} {n : Nat} {w : World} {res : Pubkey}
    {c : CalcCpi} {i : Nat} {w' : World} {acc : TokenAcc} {r : Range} (h : SyncRun env n w res c i w' acc r)
    (hE : env.Within E) : E w.led w'.led := hE.calcE h.ask

/-- The token accounts and mints an operation changes. -/
def LedOp.keys : LedOp → List Pubkey
  | .ext => []
  | .transfer t _ => [t.src, t.dst]
  | .mintTo m d _ _ _ => [m, d]
  | .burn m s _ _ _ => [m, s]
  | .close k _ _ => [k]
  | .setMintAuth m _ _ _ => [m]
  | .setFreezeAuth m _ _ _ => [m]
  | .createAta k _ _ _ => [k]

/-- The instruction pays out of the pool's reserves. -/
def Ix.movesReserves : Ix → Prop
  | .swapExactIn _ => True
  | .swapExactOut _ => True
  | .removeLiquidity _ => True
  | .startRebalance _ => True
  | _ => False

/-- The ledger operations instruction `ix` may perform. -/
def LedOp.allowed (cfg : Cfg) (w : World) (accs : List Acc) (ix : Ix) : LedOp → Prop
  | .ext => True
  | .transfer t n => (∃ a ∈ accs, a.signer = true ∧ a.key = t.authority) ∨
      (t.authority = cfg.poolState ∧ ix.movesReserves) ∨
      (t.authority = cfg.protocolFee ∧ ix = .withdrawProtocolFees n)
  | .mintTo m _ _ auth _ => auth = cfg.poolState ∧ (∃ args, ix = .addLiquidity args) ∧
      ∃ p, w.ctl.pool = some p ∧ p.lpTokenMint = m
  | .burn m _ _ auth n => (∃ args, ix = .removeLiquidity args ∧ n = args.lpTokenAmount) ∧
      (∃ a ∈ accs, a.signer = true ∧ a.key = auth) ∧ ∃ p, w.ctl.pool = some p ∧ p.lpTokenMint = m
  | .close _ _ _ => ∃ i, ix = .removeLst i
  | .setMintAuth _ _ auth new => ix = .initialize ∧ (∃ a ∈ accs, a.signer = true ∧ a.key = auth) ∧
      new = cfg.poolState
  | .setFreezeAuth _ _ auth new => ix = .initialize ∧ (∃ a ∈ accs, a.signer = true ∧ a.key = auth) ∧
      new = cfg.poolState
  | .createAta _ _ _ _ => ix = .addLst

/-! ### Loaded accounts are accounts of the instruction -/

theorem SwapAccs.load_mem {accs : List Acc} {a : SwapAccs} {r : List Acc} (h : SwapAccs.load accs = .ok (a, r)) :
    a.signer ∈ accs := by
  unfold SwapAccs.load at h; split at h
  · injection h with h; injection h with h _; subst h; simp
  · cases h

theorem LiqAccs.load_mem {accs : List Acc} {a : LiqAccs} {r : List Acc} (h : LiqAccs.load accs = .ok (a, r)) :
    a.signer ∈ accs := by
  unfold LiqAccs.load at h; split at h
  · injection h with h; injection h with h _; subst h; simp
  · cases h

theorem LstInputAccs.load_mem {accs : List Acc} {a : LstInputAccs} (h : LstInputAccs.load accs = .ok a) :
    a.admin ∈ accs := by
  unfold LstInputAccs.load at h; split at h
  · injection h with h; subst h; simp
  · cases h

theorem AddLstAccs.load_mem {accs : List Acc} {a : AddLstAccs} (h : AddLstAccs.load accs = .ok a) :
    a.admin ∈ accs := by
  unfold AddLstAccs.load at h; split at h
  · injection h with h; subst h; simp
  · cases h

theorem RemoveLstAccs.load_mem {accs : List Acc} {a : RemoveLstAccs} (h : RemoveLstAccs.load accs = .ok a) :
    a.admin ∈ accs := by
  unfold RemoveLstAccs.load at h; split at h
  · injection h with h; subst h; simp
  · cases h

theorem SetCalcAccs.load_mem {accs : List Acc} {a : SetCalcAccs} {r : List Acc}
    (h : SetCalcAccs.load accs = .ok (a, r)) : a.admin ∈ accs := by
  unfold SetCalcAccs.load at h; split at h
  · injection h with h; injection h with h _; subst h; simp
  · cases h

theorem SetAdminAccs.load_mem {accs : List Acc} {a : SetAdminAccs} (h : SetAdminAccs.load accs = .ok a) :
    a.currentAdmin ∈ accs := by
  unfold SetAdminAccs.load at h; split at h
  · injection h with h; subst h; simp
  · cases h

theorem SetFeeAccs.load_mem {accs : List Acc} {a : SetFeeAccs} (h : SetFeeAccs.load accs = .ok a) :
    a.admin ∈ accs := by
  unfold SetFeeAccs.load at h; split at h
  · injection h with h; subst h; simp
  · cases h

theorem SetBeneficiaryAccs.load_mem {accs : List Acc} {a : SetBeneficiaryAccs}
    (h : SetBeneficiaryAccs.load accs = .ok a) : a.currentBeneficiary ∈ accs := by
  unfold SetBeneficiaryAccs.load at h; split at h
  · injection h with h; subst h; simp
  · cases h

theorem SetPricingAccs.load_mem {accs : List Acc} {a : SetPricingAccs} (h : SetPricingAccs.load accs = .ok a) :
    a.admin ∈ accs := by
  unfold SetPricingAccs.load at h; split at h
  · injection h with h; subst h; simp
  · cases h

theorem WithdrawAccs.load_mem {accs : List Acc} {a : WithdrawAccs} (h : WithdrawAccs.load accs = .ok a) :
    a.beneficiary ∈ accs := by
  unfold WithdrawAccs.load at h; split at h
  · injection h with h; subst h; simp
  · cases h

theorem AddAuthAccs.load_mem {accs : List Acc} {a : AddAuthAccs} (h : AddAuthAccs.load accs = .ok a) :
    a.admin ∈ accs := by
  unfold AddAuthAccs.load at h; split at h
  · injection h with h; subst h; simp
  · cases h

theorem RemoveAuthAccs.load_mem {accs : List Acc} {a : RemoveAuthAccs} (h : RemoveAuthAccs.load accs = .ok a) :
    a.signer ∈ accs := by
  unfold RemoveAuthAccs.load at h; split at h
  · injection h with h; subst h; simp
  · cases h

theorem DisablePoolAccs.load_mem {accs : List Acc} {a : DisablePoolAccs} (h : DisablePoolAccs.load accs = .ok a) :
    a.signer ∈ accs := by
  unfold DisablePoolAccs.load at h; split at h
  · injection h with h; subst h; simp
  · cases h

theorem EnablePoolAccs.load_mem {accs : List Acc} {a : EnablePoolAccs} (h : EnablePoolAccs.load accs = .ok a) :
    a.admin ∈ accs := by
  unfold EnablePoolAccs.load at h; split at h
  · injection h with h; subst h; simp
  · cases h

theorem SetRebAuthAccs.load_mem {accs : List Acc} {a : SetRebAuthAccs} (h : SetRebAuthAccs.load accs = .ok a) :
    a.signer ∈ accs := by
  unfold SetRebAuthAccs.load at h; split at h
  · injection h with h; subst h; simp
  · cases h

theorem InitializeAccs.load_mem {accs : List Acc} {a : InitializeAccs} (h : InitializeAccs.load accs = .ok a) :
    a.authority ∈ accs := by
  unfold InitializeAccs.load at h; split at h
  · injection h with h; subst h; simp
  · cases h

theorem StartRebAccs.load_mem {accs : List Acc} {a : StartRebAccs} {r : List Acc}
    (h : StartRebAccs.load accs = .ok (a, r)) : a.rebalanceAuthority ∈ accs := by
  unfold StartRebAccs.load at h; split at h
  · injection h with h; injection h with h _; subst h; simp
  · cases h

theorem EndRebAccs.load_mem {accs : List Acc} {a : EndRebAccs} {r : List Acc}
    (h : EndRebAccs.load accs = .ok (a, r)) : a.rebalanceAuthority ∈ accs := by
  unfold EndRebAccs.load at h; split at h
  · injection h with h; injection h with h _; subst h; simp
  · cases h

theorem SwapAccs.load_all {accs : List Acc} {a : SwapAccs} {r : List Acc} (h : SwapAccs.load accs = .ok (a, r)) :
    accs = [a.signer, a.srcLstMint, a.dstLstMint, a.srcLstAcc, a.dstLstAcc, a.protocolFeeAccumulator,
      a.srcLstTokenProgram, a.dstLstTokenProgram, a.poolState, a.lstStateList, a.srcPoolReserves, a.dstPoolReserves]
      ++ r := by
  unfold SwapAccs.load at h; split at h
  · injection h with h; injection h with h h'; subst h; subst h'; rfl
  · cases h

theorem LiqAccs.load_all {accs : List Acc} {a : LiqAccs} {r : List Acc} (h : LiqAccs.load accs = .ok (a, r)) :
    accs = [a.signer, a.lstMint, a.userLst, a.userLp, a.lpTokenMint, a.protocolFeeAccumulator, a.lstTokenProgram,
      a.lpTokenProgram, a.poolState, a.lstStateList, a.poolReserves] ++ r := by
  unfold LiqAccs.load at h; split at h
  · injection h with h; injection h with h h'; subst h; subst h'; rfl
  · cases h

theorem AddLstAccs.load_all {accs : List Acc} {a : AddLstAccs} (h : AddLstAccs.load accs = .ok a) :
    a.poolReserves ∈ accs ∧ a.protocolFeeAccumulator ∈ accs := by
  unfold AddLstAccs.load at h; split at h
  · injection h with h; subst h; simp
  · cases h

theorem RemoveLstAccs.load_all {accs : List Acc} {a : RemoveLstAccs} (h : RemoveLstAccs.load accs = .ok a) :
    a.poolReserves ∈ accs ∧ a.protocolFeeAccumulator ∈ accs := by
  unfold RemoveLstAccs.load at h; split at h
  · injection h with h; subst h; simp
  · cases h

theorem WithdrawAccs.load_all {accs : List Acc} {a : WithdrawAccs} (h : WithdrawAccs.load accs = .ok a) :
    a.withdrawTo ∈ accs ∧ a.protocolFeeAccumulator ∈ accs := by
  unfold WithdrawAccs.load at h; split at h
  · injection h with h; subst h; simp
  · cases h

theorem InitializeAccs.load_all {accs : List Acc} {a : InitializeAccs} (h : InitializeAccs.load accs = .ok a) :
    a.lpTokenMint ∈ accs := by
  unfold InitializeAccs.load at h; split at h
  · injection h with h; subst h; simp
  · cases h

theorem StartRebAccs.load_all {accs : List Acc} {a : StartRebAccs} {r : List Acc}
    (h : StartRebAccs.load accs = .ok (a, r)) : a.srcPoolReserves ∈ accs ∧ a.withdrawTo ∈ accs := by
  unfold StartRebAccs.load at h; split at h
  · injection h with h; injection h with h _; subst h; simp
  · cases h

/-- The operation changes only accounts of the instruction, passed as writable. -/
def LedOp.within (accs : List Acc) (op : LedOp) : Prop := ∀ k ∈ op.keys, ∃ a ∈ accs, a.key = k ∧ a.writable = true

/-! ### Ledger traces -/

theorem SwapRun.trace {cfg : Cfg} {L : RatioLib} {env : Env cfg} {w : World} {accs : List Acc}
    {srcAccs dstAccs srcIdx dstIdx srcIn dstOut : Nat} {w' : World}
    (r : SwapRun L env w accs srcAccs dstAccs srcIdx dstIdx srcIn dstOut w') (ix : Ix) (hix : ix.movesReserves)
    {E : Ledger → Ledger → Prop} (hE : env.Within E) (h3 : E r.w2.led r.l3) (h4 : E r.l3 r.l4) (h5 : E r.l4 r.l5) :
    ∃ ops, TraceE cfg E w.led ops w'.led ∧ ∀ op ∈ ops, op.allowed cfg w accs ix ∧ op.within accs := by
  have hl : ∀ x, x ∈ _ → x ∈ accs := fun x hx => Eq.mpr (congrArg (x ∈ ·) (SwapAccs.load_all r.ver.load)) hx
  refine ⟨[.ext, .ext, .ext, .ext, .ext,
    .transfer ⟨r.a.srcLstAcc.key, r.a.srcPoolReserves.key, r.a.srcLstTokenProgram.key, r.a.signer.key,
      r.a.srcLstMint.key⟩ srcIn,
    .transfer ⟨r.a.dstPoolReserves.key, r.a.protocolFeeAccumulator.key, r.a.dstLstTokenProgram.key,
      r.a.poolState.key, r.a.dstLstMint.key⟩ r.fee,
    .transfer ⟨r.a.dstPoolReserves.key, r.a.dstLstAcc.key, r.a.dstLstTokenProgram.key,
      r.a.poolState.key, r.a.dstLstMint.key⟩ dstOut, .ext, .ext], ?_, ?_⟩
  · exact .cons (r.sync0.extE hE) <| .cons (r.sync1.extE hE) <| .cons h3 <| .cons h4 <| .cons h5 <|
      .cons r.fin.t1 <| .cons r.fin.t2 <| .cons r.fin.t3 <| .cons (r.fin.sync5.extE hE) <| .cons (r.fin.sync6.extE hE) <| .nil _
  · have e : LedOp.ext.within accs := by simp [LedOp.within, LedOp.keys]
    simp only [List.forall_mem_cons, LedOp.allowed, true_and, e]
    refine ⟨⟨.inl ⟨r.a.signer, r.a.load_mem r.ver.load, r.ver.signer, rfl⟩, ?_⟩, ⟨.inr (.inl ⟨r.ver.pool_key, hix⟩), ?_⟩,
      ⟨.inr (.inl ⟨r.ver.pool_key, hix⟩), ?_⟩, by simp⟩ <;>
    · simp only [LedOp.within, LedOp.keys, List.forall_mem_cons, List.not_mem_nil, false_implies, implies_true, and_true]
      exact ⟨⟨_, hl _ (by simp), rfl, r.ver.wr _ (by simp)⟩, ⟨_, hl _ (by simp), rfl, r.ver.wr _ (by simp)⟩⟩

theorem AddLiqRun.trace {cfg : Cfg} {L : RatioLib} {env : Env cfg} {w : World} {accs : List Acc}
    {args : AddLiquidityArgs} {w' : World} (r : AddLiqRun L env w accs args w')
    {E : Ledger → Ledger → Prop} (hE : env.Within E) :
    ∃ ops, TraceE cfg E w.led ops w'.led ∧ ∀ op ∈ ops, op.allowed cfg w accs (.addLiquidity args) ∧ op.within accs := by
  have hl : ∀ x, x ∈ _ → x ∈ accs := fun x hx => Eq.mpr (congrArg (x ∈ ·) (LiqAccs.load_all r.ver.load)) hx
  refine ⟨[.ext, .ext, .ext,
    .transfer ⟨r.a.userLst.key, r.a.poolReserves.key, r.a.lstTokenProgram.key, r.a.signer.key, r.a.lstMint.key⟩
      r.fees.toReserves,
    .transfer ⟨r.a.userLst.key, r.a.protocolFeeAccumulator.key, r.a.lstTokenProgram.key, r.a.signer.key,
      r.a.lstMint.key⟩ r.fees.toProtocolFees,
    .mintTo r.a.lpTokenMint.key r.a.userLp.key r.a.lpTokenProgram.key r.a.poolState.key r.lp, .ext], ?_, ?_⟩
  · exact .cons (r.sync0.extE hE) <| .cons (hE.calcE r.ask1) <| .cons (hE.priceE (w := { r.w1 with led := r.l2 }) r.ask2) <|
      .cons r.t1 <| .cons r.t2 <| .cons r.t3 <| .cons (r.sync3.extE hE) <| .nil _
  · have e : LedOp.ext.within accs := by simp [LedOp.within, LedOp.keys]
    simp only [List.forall_mem_cons, LedOp.allowed, true_and, e]
    refine ⟨⟨.inl ⟨r.a.signer, r.a.load_mem r.ver.load, r.ver.signer, rfl⟩, ?_⟩,
      ⟨.inl ⟨r.a.signer, r.a.load_mem r.ver.load, r.ver.signer, rfl⟩, ?_⟩,
      ⟨⟨r.ver.pool_key, ⟨args, rfl⟩, r.p, r.ver.pool, r.ver.lpMint.symm⟩, ?_⟩, by simp⟩ <;>
    · simp only [LedOp.within, LedOp.keys, List.forall_mem_cons, List.not_mem_nil, false_implies, implies_true, and_true]
      exact ⟨⟨_, hl _ (by simp), rfl, r.ver.wr _ (by simp)⟩, ⟨_, hl _ (by simp), rfl, r.ver.wr _ (by simp)⟩⟩

theorem RemLiqRun.trace {cfg : Cfg} {L : RatioLib} {env : Env cfg} {w : World} {accs : List Acc}
    {args : RemoveLiquidityArgs} {w' : World} (r : RemLiqRun L env w accs args w')
    {E : Ledger → Ledger → Prop} (hE : env.Within E) :
    ∃ ops, TraceE cfg E w.led ops w'.led ∧ ∀ op ∈ ops, op.allowed cfg w accs (.removeLiquidity args) ∧ op.within accs := by
  have hl : ∀ x, x ∈ _ → x ∈ accs := fun x hx => Eq.mpr (congrArg (x ∈ ·) (LiqAccs.load_all r.ver.load)) hx
  refine ⟨[.ext, .ext, .ext,
    .burn r.a.lpTokenMint.key r.a.userLp.key r.a.lpTokenProgram.key r.a.signer.key args.lpTokenAmount,
    .transfer ⟨r.a.poolReserves.key, r.a.userLst.key, r.a.lstTokenProgram.key, r.a.poolState.key, r.a.lstMint.key⟩
      r.out.min,
    .transfer ⟨r.a.poolReserves.key, r.a.protocolFeeAccumulator.key, r.a.lstTokenProgram.key, r.a.poolState.key,
      r.a.lstMint.key⟩ r.fee, .ext], ?_, ?_⟩
  · exact .cons (r.sync0.extE hE) <| .cons (hE.priceE r.ask1) <| .cons (hE.calcE (w := { r.w1 with led := r.l2 }) r.ask2) <|
      .cons r.t1 <| .cons r.t2 <| .cons r.t3 <| .cons (r.sync3.extE hE) <| .nil _
  · have e : LedOp.ext.within accs := by simp [LedOp.within, LedOp.keys]
    simp only [List.forall_mem_cons, LedOp.allowed, true_and, e]
    refine ⟨⟨⟨⟨args, rfl, rfl⟩, ⟨r.a.signer, r.a.load_mem r.ver.load, r.ver.signer, rfl⟩, r.p, r.ver.pool, r.ver.lpMint.symm⟩, ?_⟩,
      ⟨.inr (.inl ⟨r.ver.pool_key, trivial⟩), ?_⟩, ⟨.inr (.inl ⟨r.ver.pool_key, trivial⟩), ?_⟩, by simp⟩ <;>
    · simp only [LedOp.within, LedOp.keys, List.forall_mem_cons, List.not_mem_nil, false_implies, implies_true, and_true]
      exact ⟨⟨_, hl _ (by simp), rfl, r.ver.wr _ (by simp)⟩, ⟨_, hl _ (by simp), rfl, r.ver.wr _ (by simp)⟩⟩

theorem createAtaIfNotExist_trace {cfg : Cfg} {E : Ledger → Ledger → Prop} {l l' : Ledger} {k wa tp m : Pubkey}
    (h : createAtaIfNotExist cfg l k wa tp m = .ok l') :
    ∃ ops, TraceE cfg E l ops l' ∧ ∀ op ∈ ops, op = .createAta k wa tp m := by
  unfold createAtaIfNotExist at h
  split at h
  · exact ⟨[.createAta k wa tp m], .cons h (.nil _), by simp⟩
  · simp only [bind_ok, require_ok, exists_const, pure_ok] at h
    obtain ⟨_, rfl⟩ := h
    exact ⟨[], .nil _, by simp⟩

theorem TraceE.append {cfg : Cfg} {E : Ledger → Ledger → Prop} {l l1 l2 : Ledger} {as bs : List LedOp}
    (h : TraceE cfg E l as l1) (h' : TraceE cfg E l1 bs l2) : TraceE cfg E l (as ++ bs) l2 := by
  induction h with
  | nil => exact h'
  | cons h _ ih => exact .cons h (ih h')

/-- Every successful instruction changes the ledger only by the operations it is allowed, on its own accounts. -/
theorem processIx_traceE {cfg : Cfg} {L : RatioLib} {env : Env cfg} {tx : TxInfo} {w w' : World} {accs : List Acc}
    {ix : Ix} {E : Ledger → Ledger → Prop} (hE : env.Within E) (h : processIx cfg L env tx w accs ix = .ok w') :
    ∃ ops, TraceE cfg E w.led ops w'.led ∧ ∀ op ∈ ops, op.allowed cfg w accs ix ∧ op.within accs := by
  have e : LedOp.ext.within accs := by simp [LedOp.within, LedOp.keys]
  cases ix with
  | syncSolValue i =>
    obtain ⟨r⟩ := processSync_inv h
    exact ⟨[.ext], .cons (r.run.extE hE) (.nil _), by simp [LedOp.allowed, e]⟩
  | swapExactIn args =>
    obtain ⟨_, ⟨r⟩⟩ := processSwapExactIn_inv h
    exact r.toSwapRun.trace (.swapExactIn args) trivial hE (hE.calcE r.ask2) (hE.priceE (w := { r.w2 with led := r.l3 }) r.ask3)
      (hE.calcE (w := { r.w2 with led := r.l4 }) r.ask4)
  | swapExactOut args =>
    obtain ⟨_, ⟨r⟩⟩ := processSwapExactOut_inv h
    exact r.toSwapRun.trace (.swapExactOut args) trivial hE (hE.calcE r.ask2) (hE.priceE (w := { r.w2 with led := r.l3 }) r.ask3)
      (hE.calcE (w := { r.w2 with led := r.l4 }) r.ask4)
  | addLiquidity args =>
    obtain ⟨r⟩ := processAddLiquidity_inv h
    exact r.trace hE
  | removeLiquidity args =>
    obtain ⟨r⟩ := processRemoveLiquidity_inv h
    exact r.trace hE
  | disableLstInput i =>
    obtain ⟨a, s, p, _, _, _, _, _, _, _, _, rfl⟩ := processSetLstInput_inv (flag := 1) h
    exact ⟨[], .nil _, by simp⟩
  | enableLstInput i =>
    obtain ⟨a, s, p, _, _, _, _, _, _, _, _, rfl⟩ := processSetLstInput_inv (flag := 0) h
    exact ⟨[], .nil _, by simp⟩
  | addLst =>
    obtain ⟨r⟩ := processAddLst_inv h
    obtain ⟨o1, t1, h1⟩ := createAtaIfNotExist_trace r.c1
    obtain ⟨o2, t2, h2⟩ := createAtaIfNotExist_trace r.c2
    refine ⟨o1 ++ o2, ?_, ?_⟩
    · rw [r.eq]; exact t1.append t2
    · intro op hop
      rcases List.mem_append.1 hop with hop | hop
      · rw [h1 op hop]; exact ⟨rfl, by simpa [LedOp.within, LedOp.keys] using ⟨_, (AddLstAccs.load_all r.load).1, rfl, r.wr _ (by simp)⟩⟩
      · rw [h2 op hop]; exact ⟨rfl, by simpa [LedOp.within, LedOp.keys] using ⟨_, (AddLstAccs.load_all r.load).2, rfl, r.wr _ (by simp)⟩⟩
  | removeLst i =>
    obtain ⟨r⟩ := processRemoveLst_inv h
    refine ⟨[.close r.a.protocolFeeAccumulator.key r.tp cfg.protocolFee, .close r.a.poolReserves.key r.tp cfg.poolState],
      ?_, ?_⟩
    · exact .cons r.c1 (.cons r.c2 (.nil' (by have e := congrArg World.led r.eq; exact e)))
    · have hl := RemoveLstAccs.load_all r.load
      simp only [List.forall_mem_cons, LedOp.allowed, LedOp.within, LedOp.keys, List.not_mem_nil, false_implies,
        implies_true, and_true]
      exact ⟨⟨⟨i, rfl⟩, _, hl.2, rfl, r.wr _ (by simp)⟩, ⟨i, rfl⟩, _, hl.1, rfl, r.wr _ (by simp)⟩
  | setSolValueCalculator i =>
    obtain ⟨r⟩ := processSetSolValueCalculator_inv h
    exact ⟨[.ext], .cons (r.run.extE hE) (.nil _), by simp [LedOp.allowed, e]⟩
  | setAdmin =>
    obtain ⟨a, p, _, _, _, _, rfl⟩ := processSetAdmin_inv h
    exact ⟨[], .nil _, by simp⟩
  | setProtocolFee args =>
    obtain ⟨a, p, _, _, _, _, _, _, _, _, rfl⟩ := processSetProtocolFee_inv h
    exact ⟨[], .nil _, by simp⟩
  | setProtocolFeeBeneficiary =>
    obtain ⟨a, p, _, _, _, _, _, _, rfl⟩ := processSetBeneficiary_inv h
    exact ⟨[], .nil _, by simp⟩
  | setPricingProgram =>
    obtain ⟨a, p, _, _, _, _, _, _, _, rfl⟩ := processSetPricing_inv h
    exact ⟨[], .nil _, by simp⟩
  | withdrawProtocolFees n =>
    obtain ⟨r⟩ := processWithdraw_inv h
    refine ⟨[.transfer ⟨r.a.protocolFeeAccumulator.key, r.a.withdrawTo.key, r.t.program, cfg.protocolFee, r.t.mint⟩ n],
      ?_, ?_⟩
    · exact .cons r.t1 (.nil' (by have e := congrArg World.led r.eq; exact e))
    · have hl := WithdrawAccs.load_all r.load
      simp only [List.forall_mem_cons, LedOp.allowed, LedOp.within, LedOp.keys, List.not_mem_nil, false_implies,
        implies_true, and_true]
      exact ⟨by simp, ⟨_, hl.2, rfl, r.wr _ (by simp)⟩, _, hl.1, rfl, r.wr _ (by simp)⟩
  | addDisablePoolAuthority =>
    obtain ⟨a, p, _, _, _, _, _, rfl⟩ := processAddAuth_inv h
    exact ⟨[], .nil _, by simp⟩
  | removeDisablePoolAuthority i =>
    obtain ⟨a, p, _, _, _, _, _, rfl⟩ := processRemoveAuth_inv h
    exact ⟨[], .nil _, by simp⟩
  | disablePool =>
    obtain ⟨a, p, _, _, _, _, _, _, rfl⟩ := processDisablePool_inv h
    exact ⟨[], .nil _, by simp⟩
  | enablePool =>
    obtain ⟨a, p, _, _, _, _, _, rfl⟩ := processEnablePool_inv h
    exact ⟨[], .nil _, by simp⟩
  | startRebalance args =>
    obtain ⟨r⟩ := processStartRebalance_inv h
    refine ⟨[.ext, .ext,
      .transfer ⟨r.a.srcPoolReserves.key, r.a.withdrawTo.key, r.srcTp, cfg.poolState, r.a.srcLstMint.key⟩ args.amount,
      .ext], ?_, ?_⟩
    · exact .cons (r.sync0.extE hE) <| .cons (r.sync1.extE hE) <| .cons r.t1 <| .cons (r.sync2.extE hE) (.nil' (by have e := congrArg World.led r.eq; exact e))
    · have hl := StartRebAccs.load_all r.load
      simp only [List.forall_mem_cons, LedOp.allowed, LedOp.within, LedOp.keys, List.not_mem_nil, false_implies,
        implies_true, and_true, true_and]
      exact ⟨by simp [Ix.movesReserves], ⟨_, hl.1, rfl, r.wr _ (by simp)⟩, _, hl.2, rfl, r.wr _ (by simp)⟩
  | endRebalance =>
    obtain ⟨r⟩ := processEndRebalance_inv h
    refine ⟨[.ext], ?_, by simp [LedOp.allowed, e]⟩
    rw [r.eq]; exact .cons (r.sync0.extE hE) (.nil _)
  | setRebalanceAuthority =>
    obtain ⟨a, p, _, _, _, _, _, _, rfl⟩ := processSetRebAuth_inv h
    exact ⟨[], .nil _, by simp⟩
  | «initialize» =>
    obtain ⟨r⟩ := processInitialize_inv h
    refine ⟨[.setMintAuth r.a.lpTokenMint.key cfg.splToken cfg.initialAuthority cfg.poolState,
      .setFreezeAuth r.a.lpTokenMint.key cfg.splToken cfg.initialAuthority cfg.poolState], ?_, ?_⟩
    · exact .cons r.s1 (.cons r.s2 (.nil' (by have e := congrArg World.led r.eq; exact e)))
    · have hs : ∃ a ∈ accs, a.signer = true ∧ a.key = cfg.initialAuthority :=
        ⟨r.a.authority, r.a.load_mem r.load, r.signer, r.authority⟩
      have hl := InitializeAccs.load_all r.load
      simp only [List.forall_mem_cons, LedOp.allowed, LedOp.within, LedOp.keys, List.not_mem_nil, false_implies,
        implies_true, and_true, true_and]
      exact ⟨⟨hs, _, hl, rfl, r.wr _ (by simp)⟩, hs, _, hl, rfl, r.wr _ (by simp)⟩

/-- Every successful instruction changes the ledger only by the operations it is allowed. -/
theorem processIx_trace {cfg : Cfg} {L : RatioLib} {env : Env cfg} {tx : TxInfo} {w w' : World} {accs : List Acc}
    {ix : Ix} (h : processIx cfg L env tx w accs ix = .ok w') :
    ∃ ops, Trace cfg w.led ops w'.led ∧ ∀ op ∈ ops, op.allowed cfg w accs ix := by
  obtain ⟨ops, ht, ha⟩ := processIx_traceE env.withinExt h
  exact ⟨ops, ht, fun op ho => (ha op ho).1⟩

end S
