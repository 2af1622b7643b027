import Verif.Props.JupQuote
import Verif.Props.CalcPrograms
/-
C53: two rounds of fetching what the off-chain cache asks for make it show the chain.
-/
set_option autoImplicit false
namespace S

/-! ### Specification -/

/-- The data of the flat-fee program's state account: manager, LP withdrawal fee. -/
def FlatState.bytes (s : FlatState) : List UInt8 := toLE 32 s.manager ++ toLE 2 s.lpWithdrawalFeeBps

/-- The data of a fee account: bump, a padding byte, the input and the output fee in two's complement. -/
def FeeAccount.bytes (f : FeeAccount) (pad : Nat) : List UInt8 :=
  toLE 1 f.bump ++ (toLE 1 pad ++ (toLE 2 (natOfI16 f.inputFeeBps) ++ toLE 2 (natOfI16 f.outputFeeBps)))

/-- The address of a stake pool that some calculator of the library reads. -/
def IsStakePool (J : JupCfg) (list : List SanctumLst) (k : Pubkey) : Prop :=
  k = J.lidoState ∨ k = J.marinadeState ∨ ∃ e ∈ list, ∃ kind, e.pool = .spl kind k

/-- Every account in the map `m` is as on the chain, whose controller and tokens are `w`, whose flat-fee program holds `F` and whose stake pools
are in `ch`. Accounts may be missing. -/
structure Shows (J : JupCfg) (list : List SanctumLst) (ch : OnChain) (F : FlatFee) (w : World) (m : AccMap) : Prop where
  aligned : ∀ k b, m k = some b → 8 ∣ b.addr
  pool : ∀ b, m J.cfg.poolState = some b → ∃ p pad, w.ctl.pool = some p ∧ p.InRange ∧ pad < 2 ^ 8 ∧ b.bytes = p.toBytes pad
  lsts : ∀ b, m J.cfg.lstStateList = some b → ∃ l, (∀ x ∈ l, LstOk x) ∧ b.bytes = listBytes lstElem l ∧ l.map Prod.fst = w.ctl.lsts
  token : ∀ k t b, w.led.tok k = some t → m k = some b → J.balance b = .ok t.amount
  mint : ∀ k x b, w.led.mints k = some x → m k = some b → J.supply b = .ok x.supply
  state : ∀ b, m J.fc.stateId = some b → ∃ s, F.state = some s ∧ s.manager < 2 ^ 256 ∧ b.bytes = s.bytes
  fee : ∀ mint bump k b, J.fc.feeAddr mint bump = some k → m k = some b → ∃ f pad, F.fees k = some f ∧ pad < 2 ^ 8 ∧ b.bytes = f.bytes pad
  stakePool : ∀ k b, IsStakePool J list k → m k = some b → b.bytes = ch.data k

/-- `m` is the answer to a request for the accounts `asked`: it shows the chain, and those of the accounts asked for that exist are in it. -/
structure Answers (J : JupCfg) (list : List SanctumLst) (ch : OnChain) (F : FlatFee) (w : World) (asked : List Pubkey) (m : AccMap) : Prop
    extends Shows J list ch F w m where
  has_pool : J.cfg.poolState ∈ asked → w.ctl.pool ≠ none → m J.cfg.poolState ≠ none
  has_lsts : J.cfg.lstStateList ∈ asked → m J.cfg.lstStateList ≠ none
  has_token : ∀ k ∈ asked, w.led.tok k ≠ none → m k ≠ none
  has_mint : ∀ k ∈ asked, w.led.mints k ≠ none → m k ≠ none
  has_state : J.fc.stateId ∈ asked → F.state ≠ none → m J.fc.stateId ≠ none
  has_fee : ∀ k ∈ asked, F.fees k ≠ none → m k ≠ none
  has_stakePool : ∀ k ∈ asked, IsStakePool J list k → m k ≠ none

/-- The accounts an update is given. -/
def JupOp.given : JupOp → Option AccMap
  | .full m | .data m | .pricing m | .list m | .pool m | .supply m => some m
  | .epoch _ => none

/-- Every update was given accounts of the chain, as they were at some time. -/
def FedFromChain (J : JupCfg) (L : RatioLib) (list : List SanctumLst) (ops : List JupOp) : Prop :=
  ∀ o ∈ ops, ∀ m, o.given = some m → ∃ ch cs w, Shows J list ch (flatHistory (fc := J.fc) L cs) w m

/-- The Sanctum LST list is right about the chain: token programs are those of the mints and an SPL mint has no other usable stake pool than the
one listed. -/
structure ListRight (J : JupCfg) (list : List SanctumLst) (ch : OnChain) (w : World) : Prop where
  program : ∀ e ∈ list, ∀ m, w.led.mints e.mint = some m → m.program = e.tokenProgram
  pool : ∀ e ∈ list, ∀ kind p, e.pool = .spl kind p → ∀ p' c, UsablePool (J.spl kind) ch p' e.mint c → p' = p

/-- The calculator programs answer as modelled, on the chain `ch`. -/
structure CalcsServed (J : JupCfg) (L : RatioLib) (env : Env J.cfg) (ch : OnChain) : Prop where
  lido : ∃ st, env.CalcServed L J.lido ch st
  marinade : ∃ st, env.CalcServed L J.marinade ch st
  spl : ∀ k, ∃ st, env.CalcServed L (J.spl k) ch st
  wsol : env.Values L J.wsolProgram J.wsolMint .wsol

/-- The figures a calculator of the library holds. -/
def KnownCalc.figures : KnownCalc → Option AnyCalc
  | .lido c => c.map .lido
  | .marinade c => c.map .marinade
  | .wsol => some .wsol
  | .spl _ _ _ c => c.map .spl

/-- `c` are the figures of the stake pool of `mint`, as they stand on the chain (wrapped SOL has none). -/
def ChainFigures (J : JupCfg) (list : List SanctumLst) (ch : OnChain) (mint : Pubkey) : AnyCalc → Prop
  | .lido x => mint = J.lidoMint ∧ readLidoUnchecked (ch.data J.lidoState) = .ok x
  | .marinade x => mint = J.msolMint ∧ readMarinadeUnchecked (ch.data J.marinadeState) = .ok x
  | .wsol => mint = J.wsolMint
  | .spl x => ∃ e, list.find? (fun e => e.mint = mint) = some e ∧ ∃ kind p, e.pool = .spl kind p ∧ readSplPool (ch.data p) = .ok (mint, x)

/-- The cache holds all it can quote from. -/
structure Full (J : JupCfg) (list : List SanctumLst) (ch : OnChain) (F : FlatFee) (S : SPool) (w : World) : Prop where
  pool : ∃ p, S.pool = .ok p ∧ w.ctl.pool = some p
  lsts : S.lstList.lsts = .ok w.ctl.lsts
  supply : ∀ p, w.ctl.pool = some p → S.lpSupply = (w.led.mints p.lpTokenMint).map Mint.supply
  reserves : ∀ (i : Nat) (d : LstData), S.data[i]? = some (some d) → d.reserves ≠ none
  /-- A calculator whose stake pool is in order can be used. -/
  calcs : ∀ (i : Nat) s d, w.ctl.lsts[i]? = some s → S.data[i]? = some (some d) →
    d.solCalc.usable S.epoch = .ok .wsol ∨ ∃ pc k, pc.programId = s.solValueCalculator ∧ IsStakePool J list k ∧
      ∀ c, UsablePool pc ch k s.mint c → d.solCalc.usable S.epoch = .ok c
  /-- The figures it holds are those on the chain. -/
  figures : ∀ (i : Nat) s d c, w.ctl.lsts[i]? = some s → S.data[i]? = some (some d) → d.solCalc.figures = some c → ChainFigures J list ch s.mint c
  epoch : S.epoch = ch.epoch
  /-- If the pool is priced by the flat-fee program, the cache has its state and, for each mint it knows of, the fees set. -/
  pricing : ∀ p, w.ctl.pool = some p → p.pricingProgram = J.fc.programId →
    ∃ pp, S.pricing = some pp ∧ pp.state = F.state ∧ ∀ e ∈ pp.fees, e.2 = F.feesOf J.fc e.1

/-- The fee accounts in the cache all exist on the chain. -/
def NoneClosed (J : JupCfg) (F : FlatFee) (S : SPool) : Prop :=
  ∀ pp mint f, S.pricing = some pp → (mint, some f) ∈ pp.fees → F.feesOf J.fc mint ≠ none

/-! ### Reading the accounts -/

section
variable {J : JupCfg} {L : RatioLib} {list : List SanctumLst} {ch : OnChain} {F : FlatFee} {w : World} {m : AccMap}

theorem Shows.pool_ok (h : Shows J list ch F w m) {b : Blob} (hb : m J.cfg.poolState = some b) : ∃ p, w.ctl.pool = some p ∧ b.pool = .ok p := by
  obtain ⟨p, pad, hp, h1, h2, h3⟩ := h.pool b hb
  have := ((C29_pool_state b.addr b.bytes).1 p pad).2 ⟨h.aligned _ b hb, h1, h2, h3⟩
  exact ⟨p, hp, by simp [Blob.pool, this, Except.map]⟩

theorem Shows.lsts_ok (h : Shows J list ch F w m) {b : Blob} (hb : m J.cfg.lstStateList = some b) : b.lsts = .ok w.ctl.lsts := by
  obtain ⟨l, h1, h2, h3⟩ := h.lsts b hb
  have := ((C30_read lstElem_lawful b.addr b.bytes).1 l).2 ⟨h.aligned _ b hb, h1, h2⟩
  simp [Blob.lsts, this, okOr, Except.map, h3]

theorem Shows.state_ok (h : Shows J list ch F w m) (hF : F.Ok J.fc) {b : Blob} (hb : m J.fc.stateId = some b) :
    ∃ s, F.state = some s ∧ b.flatState = .ok s := by
  obtain ⟨s, hs, hm, hbytes⟩ := h.state b hb
  refine ⟨s, hs, ?_⟩
  have hfee := hF.lpFee s hs
  have hfit : Fits flatStateFields [s.manager, s.lpWithdrawalFeeBps] := by
    refine ⟨?_, ?_, trivial⟩
    · show s.manager < 256 ^ 32; omega
    · show s.lpWithdrawalFeeBps < 256 ^ 2; omega
  have hpk : b.bytes = packFields flatStateFields [s.manager, s.lpWithdrawalFeeBps] := by
    rw [hbytes]; simp [FlatState.bytes, packFields, flatStateFields, CField.pubkey, CField.bytes, CField.u16]
  have hlen := packFields_length hfit
  have ha := h.aligned _ b hb
  unfold Blob.flatState
  rw [if_neg, hpk, readStruct_pack hfit (by decide)]
  rw [hpk, hlen]
  have e1 : cAlign flatStateFields = 2 := by decide
  have e2 : packSize flatStateFields = cSize flatStateFields := by decide
  rw [e1, e2]
  omega

theorem Shows.fee_ok (h : Shows J list ch F w m) (hF : F.Ok J.fc) {mint bump : Nat} {k : Pubkey} {b : Blob} (hk : J.fc.feeAddr mint bump = some k)
    (hb : m k = some b) : ∃ f, F.fees k = some f ∧ b.feeAccount = .ok f ∧ J.fc.findFee mint = (k, f.bump) := by
  obtain ⟨f, pad, hf, hpad, hbytes⟩ := h.fee mint bump k b hk hb
  obtain ⟨m', hm'⟩ := hF.addr k f hf
  have hadd := J.fc.findFee_addr m'
  rw [hm'] at hadd
  have e := J.fc.feeAddr_inj hadd hk
  subst e
  refine ⟨f, hf, ?_, hm'⟩
  have hbump : f.bump < 256 := by have := J.fc.findFee_u8 m'; rw [hm'] at this; exact this
  have hr := hF.fee k f hf
  have hfit : Fits feeAccountFields [f.bump, pad, natOfI16 f.inputFeeBps, natOfI16 f.outputFeeBps] := by
    refine ⟨?_, ?_, ?_, ?_, trivial⟩
    · show f.bump < 256 ^ 1; omega
    · show pad < 256 ^ 1; omega
    · exact natOfI16_lt _
    · exact natOfI16_lt _
  have hpk : b.bytes = packFields feeAccountFields [f.bump, pad, natOfI16 f.inputFeeBps, natOfI16 f.outputFeeBps] := by
    rw [hbytes]; simp [FeeAccount.bytes, packFields, feeAccountFields, CField.u8, CField.u16]
  have hlen := packFields_length hfit
  have ha := h.aligned _ b hb
  unfold Blob.feeAccount
  rw [if_neg, hpk, readStruct_pack hfit (by decide)]
  · simp only [i16_roundtrip (x := f.inputFeeBps) (by omega), i16_roundtrip (x := f.outputFeeBps) (by omega)]
  · rw [hpk, hlen]
    have e1 : cAlign feeAccountFields = 2 := by decide
    have e2 : packSize feeAccountFields = cSize feeAccountFields := by decide
    rw [e1, e2]
    omega

/-! ### What every fed cache satisfies -/

/-- The pricing program is the one the cached pool state names, and cached fee accounts carry their mint's bump. -/
structure PricingInv (J : JupCfg) (S : SPool) : Prop where
  pool : ∀ pp, S.pricing = some pp → ∃ p, S.pool = .ok p ∧ p.pricingProgram = J.fc.programId
  bump : ∀ pp, S.pricing = some pp → ∀ mint f, (mint, some f) ∈ pp.fees → f.bump = (J.fc.findFee mint).2

theorem feeAccountAddr_eq {mint k : Pubkey} {o : Option FeeAccount} (ho : ∀ f, o = some f → f.bump = (J.fc.findFee mint).2)
    (h : feeAccountAddr J.fc mint o = .ok k) : k = (J.fc.findFee mint).1 := by
  cases o with
  | none => injection h with h; exact h.symm
  | some f =>
    simp only [feeAccountAddr, okOr_ok, ho f rfl, J.fc.findFee_addr, Option.some.injEq] at h
    exact h.symm

theorem updateFees_bump (hs : Shows J list ch F w m) (hF : F.Ok J.fc) {l : List (Pubkey × Option FeeAccount)}
    (h : ∀ mint f, (mint, some f) ∈ l → f.bump = (J.fc.findFee mint).2) :
    ∀ mint f, (mint, some f) ∈ (updateFees J.fc m l).1 → f.bump = (J.fc.findFee mint).2 := by
  induction l with
  | nil => simp [updateFees]
  | cons e l ih =>
    obtain ⟨mt, fa⟩ := e
    have ih := ih (fun mint f hmf => h mint f (List.mem_cons_of_mem _ hmf))
    have h0 : ∀ f, fa = some f → f.bump = (J.fc.findFee mt).2 := fun f hf => h mt f (by simp [hf])
    intro mint f hmf
    simp only [updateFees] at hmf
    split at hmf
    · exact h _ _ hmf
    · rename_i k hk
      have hk' := feeAccountAddr_eq h0 hk
      split at hmf
      · rcases List.mem_cons.1 hmf with e | hmf
        · injection e with e1 e2; subst e1; exact h0 f e2.symm
        · exact ih _ _ hmf
      · rename_i b hb
        split at hmf
        · exact h _ _ hmf
        · rename_i a ha
          rcases List.mem_cons.1 hmf with e | hmf
          · injection e with e1 e2; injection e2 with e2; subst e1 e2
            have hadd := J.fc.findFee_addr mint
            rw [← hk'] at hadd
            obtain ⟨f', _, hb', hf'⟩ := hs.fee_ok hF hadd hb
            rw [hb'] at ha; injection ha with ha; subst ha
            rw [hf']
          · exact ih _ _ hmf

theorem FlatProg.update_bump (hs : Shows J list ch F w m) (hF : F.Ok J.fc) {pp : FlatProg}
    (h : ∀ mint f, (mint, some f) ∈ pp.fees → f.bump = (J.fc.findFee mint).2) :
    ∀ mint f, (mint, some f) ∈ (pp.update J.fc m).1.fees → f.bump = (J.fc.findFee mint).2 := by
  unfold FlatProg.update
  split
  · exact updateFees_bump hs hF h
  · split
    · exact h
    · exact updateFees_bump hs hF h

theorem SPool.pool_congr {S T : SPool} (h : T.poolState = S.poolState) : T.pool = S.pool := by simp [SPool.pool, h]

theorem PricingInv.same {S T : SPool} (h : PricingInv J S) (h1 : T.pricing = S.pricing) (h2 : T.poolState = S.poolState) : PricingInv J T :=
  ⟨by rw [h1, SPool.pool_congr h2]; exact h.pool, by rw [h1]; exact h.bump⟩

theorem updateList_same (J : JupCfg) (m : AccMap) (S : SPool) : (S.updateList J m).1.pricing = S.pricing ∧
    (S.updateList J m).1.poolState = S.poolState ∧ (S.updateList J m).1.lpSupply = S.lpSupply ∧ (S.updateList J m).1.epoch = S.epoch := by
  unfold SPool.updateList
  repeat' first | exact ⟨rfl, rfl, rfl, rfl⟩ | split

theorem updateSupply_same (J : JupCfg) (m : AccMap) (S : SPool) : (S.updateSupply J m).1.pricing = S.pricing ∧
    (S.updateSupply J m).1.poolState = S.poolState ∧ (S.updateSupply J m).1.epoch = S.epoch := by
  unfold SPool.updateSupply
  repeat' first | exact ⟨rfl, rfl, rfl⟩ | split

theorem updatePricing_same (J : JupCfg) (m : AccMap) (S : SPool) : (S.updatePricing J m).1.poolState = S.poolState ∧
    (S.updatePricing J m).1.lpSupply = S.lpSupply ∧ (S.updatePricing J m).1.epoch = S.epoch := by
  unfold SPool.updatePricing
  repeat' first | exact ⟨rfl, rfl, rfl⟩ | split

theorem updatePool_same (J : JupCfg) (m : AccMap) (S : SPool) : (S.updatePool J m).1.lpSupply = S.lpSupply ∧
    (S.updatePool J m).1.epoch = S.epoch := by
  unfold SPool.updatePool
  repeat' first | exact ⟨rfl, rfl⟩ | split

theorem updatePricing_inv (hs : Shows J list ch F w m) (hF : F.Ok J.fc) {S : SPool} (h : PricingInv J S) : PricingInv J (S.updatePricing J m).1 := by
  unfold SPool.updatePricing
  split
  · exact h
  · rename_i pp hpp
    refine ⟨fun _ _ => h.pool pp hpp, ?_⟩
    intro pp' e
    injection e with e; subst e
    exact FlatProg.update_bump hs hF (h.bump pp hpp)

theorem tryPricing_ok {p : PoolState} {lsts : List LstState} {pp : FlatProg} (h : tryPricing J p lsts = .ok pp) :
    p.pricingProgram = J.fc.programId ∧ pp = ⟨none, lsts.map fun s => (s.mint, none)⟩ := by
  simp only [tryPricing, bind_ok, require_ok, exists_const, pure_ok] at h
  exact ⟨h.1, h.2.symm⟩

theorem SPool.pool_some {S : SPool} {b : Blob} (h : S.poolState = some b) : S.pool = b.pool := by
  simp [SPool.pool, h, okOr, bind, Except.bind]

/-- What `updatePool` does with a pool state account it can read. -/
theorem updatePool_eq {S : SPool} {b : Blob} {p : PoolState} {lsts : List LstState} (hb : m J.cfg.poolState = some b) (hl : S.lstList.lsts = .ok lsts)
    (hp : b.pool = .ok p) (hi : PricingInv J S) :
    (p.pricingProgram ≠ J.fc.programId ∧ S.updatePool J m = ({ S with pricing := none, poolState := some b }, .ok ())) ∨
    (p.pricingProgram = J.fc.programId ∧ S.pricing = none ∧ ∃ pp, pp = FlatProg.update J.fc m ⟨none, lsts.map fun s => (s.mint, none)⟩ ∧
      S.updatePool J m = ({ S with pricing := some pp.1, poolState := some b }, pp.2)) ∨
    (p.pricingProgram = J.fc.programId ∧ S.pricing ≠ none ∧ S.updatePool J m = ({ S with poolState := some b }, .ok ())) := by
  unfold SPool.updatePool
  simp only [hb, hl, hp]
  by_cases hpr : p.pricingProgram = J.fc.programId
  · right
    cases hS : S.pricing with
    | none =>
      left
      have hre : S.reinit p = true := by simp [SPool.reinit, hS]
      simp only [hre, if_true, tryPricing, hpr, require, bind, Except.bind, pure, Except.pure]
      exact ⟨trivial, trivial, _, rfl, rfl⟩
    | some pp =>
      right
      obtain ⟨q, hq, hqp⟩ := hi.pool pp hS
      have hre : S.reinit p = false := by simp [SPool.reinit, hS, hq, hqp, hpr]
      simp [hre, hpr]
  · left
    refine ⟨hpr, ?_⟩
    have htry : ∃ e, tryPricing J p lsts = .error e := by
      refine ⟨.unknownPricingProgram, ?_⟩
      simp [tryPricing, require, hpr, bind, Except.bind]
    obtain ⟨e, he⟩ := htry
    cases hS : S.pricing with
    | none =>
      have hre : S.reinit p = true := by simp [SPool.reinit, hS]
      simp [hre, he]
    | some pp =>
      obtain ⟨q, hq, hqp⟩ := hi.pool pp hS
      have hre : S.reinit p = true := by simp [SPool.reinit, hS, hq, hqp, Ne.symm hpr]
      simp [hre, he]

theorem updatePool_inv (hs : Shows J list ch F w m) (hF : F.Ok J.fc) {S : SPool} (h : PricingInv J S) : PricingInv J (S.updatePool J m).1 := by
  cases hb : m J.cfg.poolState with
  | none => unfold SPool.updatePool; simp only [hb]; exact h
  | some b =>
    cases hl : S.lstList.lsts with
    | error e => unfold SPool.updatePool; simp only [hb, hl]; exact h
    | ok lsts =>
      obtain ⟨p, _, hp⟩ := hs.pool_ok hb
      rcases updatePool_eq hb hl hp h with ⟨_, e⟩ | ⟨hpr, _, pp, hpp, e⟩ | ⟨hpr, _, e⟩
      · rw [e]; exact ⟨fun pp h => (by cases h), fun pp h => (by cases h)⟩
      · rw [e]
        refine ⟨fun pp' _ => ⟨p, by rw [SPool.pool_some rfl]; exact hp, hpr⟩, ?_⟩
        intro pp' e'
        injection e' with e'; subst e' hpp
        apply FlatProg.update_bump hs hF
        intro mint f hmf
        simp at hmf
      · rw [e]
        refine ⟨fun pp' _ => ⟨p, by rw [SPool.pool_some rfl]; exact hp, hpr⟩, ?_⟩
        exact fun pp' e' => h.bump pp' e'

theorem updateFull_inv (hs : Shows J list ch F w m) (hF : F.Ok J.fc) {S : SPool} (h : PricingInv J S) : PricingInv J (S.updateFull J m).1 := by
  have h1 : PricingInv J (S.updateData J m).1 := h.same rfl rfl
  have h2 := updatePricing_inv hs hF h1
  have h3 := h2.same (updateList_same J m _).1 (updateList_same J m _).2.1
  have h4 := updatePool_inv hs hF h3
  exact h4.same (updateSupply_same J m _).1 (updateSupply_same J m _).2.1

end

theorem JupInit.pricingInv {J : JupCfg} {list : List SanctumLst} {S : SPool} (h : JupInit J list S) : PricingInv J S := by
  have hl : ∀ {e b S}, SPool.fromList J list e b = .ok S → PricingInv J S := by
    intro e b S h
    simp only [SPool.fromList, bind_ok, pure_ok] at h
    obtain ⟨_, _, rfl⟩ := h
    exact ⟨fun pp h => (by cases h), fun pp h => (by cases h)⟩
  cases h with
  | list h => exact hl h
  | init h =>
    simp only [SPool.fromInit, bind_ok, pure_ok] at h
    obtain ⟨_, _, p, hp, pp, hpp, S', hS, rfl⟩ := h
    obtain ⟨h1, h2⟩ := tryPricing_ok hpp
    refine ⟨fun _ _ => ⟨p, by rw [SPool.pool_some rfl]; exact hp, h1⟩, ?_⟩
    intro pp' e mint f hmf
    injection e with e; subst e h2
    simp at hmf
  | keyed h =>
    simp only [SPool.fromKeyed, bind_ok, require_ok, exists_const] at h
    exact hl h.2

theorem FedFromChain.inv {J : JupCfg} {L : RatioLib} {list : List SanctumLst} {ops : List JupOp} (hf : FedFromChain J L list ops) {S : SPool}
    (h : PricingInv J S) : PricingInv J (S.after J ops) := by
  induction ops generalizing S with
  | nil => exact h
  | cons o ops ih =>
    refine ih (fun o' ho' => hf o' (List.mem_cons_of_mem _ ho')) ?_
    have ho := hf o (by simp)
    cases o with
    | epoch e => exact h.same rfl rfl
    | full m => obtain ⟨ch, cs, w, hs⟩ := ho m rfl; exact updateFull_inv hs (C26_bounds cs) h
    | data m => exact h.same rfl rfl
    | pricing m => obtain ⟨ch, cs, w, hs⟩ := ho m rfl; exact updatePricing_inv hs (C26_bounds cs) h
    | list m => exact h.same (updateList_same J m S).1 (updateList_same J m S).2.1
    | pool m => obtain ⟨ch, cs, w, hs⟩ := ho m rfl; exact updatePool_inv hs (C26_bounds cs) h
    | supply m => exact h.same (updateSupply_same J m S).1 (updateSupply_same J m S).2.1

/-! ### The first round -/

theorem andR_ok {a b : R Unit} : andR a b = .ok () ↔ a = .ok () ∧ b = .ok () := by
  unfold andR
  cases a with
  | error e => simp
  | ok u => cases u; simp

theorem foldl_andR_ok {l : List (R Unit)} {a : R Unit} (h : l.foldl andR a = .ok ()) : a = .ok () ∧ ∀ x ∈ l, x = .ok () := by
  induction l generalizing a with
  | nil => exact ⟨h, by simp⟩
  | cons x l ih =>
    obtain ⟨h1, h2⟩ := ih h
    obtain ⟨ha, hx⟩ := andR_ok.1 h1
    exact ⟨ha, List.forall_mem_cons.2 ⟨hx, h2⟩⟩

section
variable {J : JupCfg} {L : RatioLib} {list : List SanctumLst} {ch : OnChain} {F : FlatFee} {w : World} {m : AccMap}

theorem updateList_shows (hs : Shows J list ch F w m) (hb : m J.cfg.lstStateList ≠ none) {S : SPool} {l : List LstState} (hl : S.lstList.lsts = .ok l) :
    (S.updateList J m).1.lstList.lsts = .ok w.ctl.lsts := by
  obtain ⟨b, hb⟩ := Option.ne_none_iff_exists'.1 hb
  have hlb := hs.lsts_ok hb
  unfold SPool.updateList
  simp only [hb, hl, hlb]
  split <;> exact hlb

/-- After a round the LST list, the pool state and the kind of pricing program are those of the chain. -/
structure Synced (J : JupCfg) (S : SPool) (w : World) : Prop where
  lsts : S.lstList.lsts = .ok w.ctl.lsts
  pool : ∃ p, S.pool = .ok p ∧ w.ctl.pool = some p ∧ (p.pricingProgram = J.fc.programId → S.pricing ≠ none)

theorem updateFull_synced {asked : List Pubkey} (hs : Answers J list ch F w asked m) (hF : F.Ok J.fc) {S : SPool} (hc : CacheInv J list S)
    (hi : PricingInv J S) (hq : J.cfg.poolState ∈ asked ∧ J.cfg.lstStateList ∈ asked) (hp : w.ctl.pool ≠ none) :
    Synced J (S.updateFull J m).1 w := by
  have h2 := updatePricing_inv hs.toShows hF (hi.same (T := (S.updateData J m).1) rfl rfl)
  have h3 := h2.same (updateList_same J m _).1 (updateList_same J m _).2.1
  obtain ⟨l, hl, _⟩ := hc.aligned
  have hl2 : (((S.updateData J m).1).updatePricing J m).1.lstList.lsts = .ok l := by
    rw [(updatePricing_keeps J m _).1]; exact hl
  have hl3 := updateList_shows hs.toShows (hs.has_lsts hq.2) hl2
  obtain ⟨b, hb⟩ := Option.ne_none_iff_exists'.1 (hs.has_pool hq.1 hp)
  obtain ⟨p, hwp, hbp⟩ := hs.toShows.pool_ok hb
  have key : ∀ T : SPool, T.lstList.lsts = .ok w.ctl.lsts → PricingInv J T →
      (T.updatePool J m).1.poolState = some b ∧ (p.pricingProgram = J.fc.programId → (T.updatePool J m).1.pricing ≠ none) := by
    intro T hT hTi
    rcases updatePool_eq hb hT hbp hTi with ⟨hn, e⟩ | ⟨hpr, _, pp, hpp, e⟩ | ⟨hpr, hn, e⟩
    · rw [e]; exact ⟨rfl, fun h => absurd h hn⟩
    · rw [e]; exact ⟨rfl, fun _ => by simp⟩
    · rw [e]; exact ⟨rfl, fun _ => hn⟩
  obtain ⟨k1, k2⟩ := key _ hl3 h3
  have e5 := updateSupply_same J m (((((S.updateData J m).1).updatePricing J m).1.updateList J m).1.updatePool J m).1
  have e5' := updateSupply_keeps J m (((((S.updateData J m).1).updatePricing J m).1.updateList J m).1.updatePool J m).1
  refine ⟨?_, p, ?_, hwp, ?_⟩
  · unfold SPool.updateFull
    simp only
    rw [e5'.1, (updatePool_keeps J m _).1]; exact hl3
  · unfold SPool.updateFull
    simp only
    rw [SPool.pool_some (e5.2.1.trans k1)]; exact hbp
  · unfold SPool.updateFull
    simp only
    rw [e5.1]; exact k2

/-! ### The second round -/

theorem sameLsts_refl (l : List LstState) : sameLsts l l = true := by
  rw [sameLsts_iff]
  refine ⟨rfl, ?_⟩
  intros; simp_all

theorem updateList_same_list (hs : Shows J list ch F w m) (hb : m J.cfg.lstStateList ≠ none) {S : SPool} (hl : S.lstList.lsts = .ok w.ctl.lsts) :
    (S.updateList J m).1.data = S.data := by
  obtain ⟨b, hb⟩ := Option.ne_none_iff_exists'.1 hb
  have hlb := hs.lsts_ok hb
  unfold SPool.updateList
  simp only [hb, hl, hlb, sameLsts_refl, if_true]

theorem updateFees_spec {asked : List Pubkey} (hs : Answers J list ch F w asked m) (hF : F.Ok J.fc) {l : List (Pubkey × Option FeeAccount)}
    (hb : ∀ mint f, (mint, some f) ∈ l → f.bump = (J.fc.findFee mint).2) (hk : ∀ e ∈ l, (J.fc.findFee e.1).1 ∈ asked)
    (hclosed : ∀ mint f, (mint, some f) ∈ l → F.feesOf J.fc mint ≠ none) (hok : (updateFees J.fc m l).2 = .ok ()) :
    ∀ e ∈ (updateFees J.fc m l).1, e.2 = F.feesOf J.fc e.1 := by
  induction l with
  | nil => simp [updateFees]
  | cons e l ih =>
    obtain ⟨mt, fa⟩ := e
    have h0 : ∀ f, fa = some f → f.bump = (J.fc.findFee mt).2 := fun f hf => hb mt f (by simp [hf])
    have ih := ih (fun mint f hmf => hb mint f (List.mem_cons_of_mem _ hmf)) (fun e he => hk e (List.mem_cons_of_mem _ he))
      (fun mint f hmf => hclosed mint f (List.mem_cons_of_mem _ hmf))
    intro e he
    simp only [updateFees] at he hok
    split at he
    · rename_i hk'; simp only [hk'] at hok; cases hok
    · rename_i k hk'
      simp only [hk'] at hok
      have hke := feeAccountAddr_eq h0 hk'
      subst hke
      split at he
      · rename_i hm
        simp only [hm] at hok
        rcases List.mem_cons.1 he with rfl | he
        · have hnone : F.feesOf J.fc mt = none := by
            by_contra hne
            exact hs.has_fee _ (hk (mt, fa) (by simp)) hne hm
          cases fa with
          | none => exact hnone.symm
          | some f => exact absurd hnone (hclosed mt f (by simp))
        · exact ih hok e he
      · rename_i b hm
        simp only [hm] at hok
        obtain ⟨f, hf, hbf, _⟩ := hs.toShows.fee_ok hF (J.fc.findFee_addr mt) hm
        simp only [hbf] at hok he
        rcases List.mem_cons.1 he with rfl | he
        · exact hf.symm
        · exact ih hok e he

theorem toFetch_fee {p : FlatProg} (hb : ∀ mint f, (mint, some f) ∈ p.fees → f.bump = (J.fc.findFee mint).2) {e : Pubkey × Option FeeAccount}
    (he : e ∈ p.fees) : (J.fc.findFee e.1).1 ∈ p.toFetch J.fc := by
  refine List.mem_cons_of_mem _ (List.mem_map.2 ⟨e, he, ?_⟩)
  obtain ⟨mt, fa⟩ := e
  cases fa with
  | none => rfl
  | some f => simp [feeAccountToFetch, hb mt f he, J.fc.findFee_addr]

theorem FlatProg.update_spec {asked : List Pubkey} (hs : Answers J list ch F w asked m) (hF : F.Ok J.fc) {p : FlatProg}
    (hb : ∀ mint f, (mint, some f) ∈ p.fees → f.bump = (J.fc.findFee mint).2) (hk : ∀ k ∈ p.toFetch J.fc, k ∈ asked)
    (hst : F.state ≠ none) (hclosed : ∀ mint f, (mint, some f) ∈ p.fees → F.feesOf J.fc mint ≠ none) (hok : (p.update J.fc m).2 = .ok ()) :
    (p.update J.fc m).1.state = F.state ∧ ∀ e ∈ (p.update J.fc m).1.fees, e.2 = F.feesOf J.fc e.1 := by
  obtain ⟨b, hm⟩ := Option.ne_none_iff_exists'.1 (hs.has_state (hk _ (by simp [FlatProg.toFetch])) hst)
  obtain ⟨s, hs', hbs⟩ := hs.toShows.state_ok hF hm
  unfold FlatProg.update at hok ⊢
  simp only [hm, hbs] at hok ⊢
  exact ⟨hs'.symm, updateFees_spec hs hF hb (fun e he => hk _ (toFetch_fee hb he)) hclosed hok⟩

/-- A calculator loaded from the chain. -/
def Loaded (J : JupCfg) (ch : OnChain) : KnownCalc → Prop
  | .lido c => ∃ x, c = some x ∧ readLidoUnchecked (ch.data J.lidoState) = .ok x
  | .marinade c => ∃ x, c = some x ∧ readMarinadeUnchecked (ch.data J.marinadeState) = .ok x
  | .wsol => True
  | .spl _ m p c => ∃ x, c = some x ∧ readSplPool (ch.data p) = .ok (m, x)

theorem KnownCalc.update_spec {asked : List Pubkey} (hs : Answers J list ch F w asked m) {k : KnownCalc} {e : SanctumLst} (he : e ∈ list) (hk : k.Of e)
    (ha : ∀ a ∈ k.toFetch J, a ∈ asked) (hok : (k.update J m).2 = .ok ()) : Loaded J ch (k.update J m).1 := by
  have hp : ∀ a ∈ k.toFetch J, IsStakePool J list a := by
    cases k with
    | lido c => intro a h; simp [KnownCalc.toFetch] at h; exact .inl h
    | marinade c => intro a h; simp [KnownCalc.toFetch] at h; exact .inr (.inl h)
    | wsol => intro a h; simp [KnownCalc.toFetch] at h
    | spl kd mt p c => intro a h; simp [KnownCalc.toFetch] at h; subst h; exact .inr (.inr ⟨e, he, kd, hk.1⟩)
  have hb : ∀ a ∈ k.toFetch J, ∃ b, m a = some b ∧ b.bytes = ch.data a := by
    intro a h
    obtain ⟨b, hb⟩ := Option.ne_none_iff_exists'.1 (hs.has_stakePool a (ha a h) (hp a h))
    exact ⟨b, hb, hs.stakePool a b (hp a h) hb⟩
  unfold KnownCalc.update at hok ⊢
  cases k with
  | wsol => trivial
  | lido c =>
    obtain ⟨b, hb, hd⟩ := hb J.lidoState (by simp [KnownCalc.toFetch])
    simp only [KnownCalc.toFetch, hb] at hok ⊢
    cases hl : KnownCalc.load b (.lido c) with
    | error e => simp only [hl] at hok; cases hok
    | ok k' =>
      simp only [KnownCalc.load, bind_ok, pure_ok, hd] at hl
      obtain ⟨x, hx, rfl⟩ := hl
      exact ⟨x, rfl, hx⟩
  | marinade c =>
    obtain ⟨b, hb, hd⟩ := hb J.marinadeState (by simp [KnownCalc.toFetch])
    simp only [KnownCalc.toFetch, hb] at hok ⊢
    cases hl : KnownCalc.load b (.marinade c) with
    | error e => simp only [hl] at hok; cases hok
    | ok k' =>
      simp only [KnownCalc.load, bind_ok, pure_ok, hd] at hl
      obtain ⟨x, hx, rfl⟩ := hl
      exact ⟨x, rfl, hx⟩
  | spl kd mt p c =>
    obtain ⟨b, hb, hd⟩ := hb p (by simp [KnownCalc.toFetch])
    simp only [KnownCalc.toFetch, hb] at hok ⊢
    cases hl : KnownCalc.load b (.spl kd mt p c) with
    | error e => simp only [hl] at hok; cases hok
    | ok k' =>
      simp only [KnownCalc.load, bind_ok, pure_ok, hd, Prod.exists, require_ok, exists_const] at hl
      obtain ⟨mt', x, hx, rfl, rfl⟩ := hl
      exact ⟨x, rfl, hx⟩

theorem readLido_unchecked {b : List UInt8} {x : LidoCalc} (h : readLido b = .ok x) : readLidoUnchecked b = .ok x := by
  simp only [readLido, bind_ok, Prod.exists, require_ok, exists_const, pure_ok] at h
  obtain ⟨vs, r, hd, _, rfl⟩ := h
  simp [readLidoUnchecked, hd, bind, Except.bind, pure, Except.pure]

theorem readMarinade_unchecked {b : List UInt8} {x : MarinadeCalc} (h : readMarinade b = .ok x) : readMarinadeUnchecked b = .ok x := by
  simp only [readMarinade, bind_ok, Prod.exists, require_ok, exists_const, pure_ok] at h
  obtain ⟨vs, r, hd, _, rfl⟩ := h
  simp [readMarinadeUnchecked, hd, bind, Except.bind, pure, Except.pure]

theorem Loaded.values {env : Env J.cfg} (hc : CalcsServed J L env ch) (hr : ListRight J list ch w) {k : KnownCalc} (h : Loaded J ch k) {e : SanctumLst}
    (he : e ∈ list) (hk : k.Of e) {ep : Nat} {c : AnyCalc} (hu : k.usable ep = .ok c) : env.Values L (k.programId J) (k.lstMint J) c := by
  cases k with
  | wsol => injection hu with hu; subst hu; exact hc.wsol
  | lido o =>
    obtain ⟨x, rfl, hx⟩ := h
    simp only [KnownCalc.usable, bind_ok, okOr_ok, pure_ok, Option.some.injEq] at hu
    obtain ⟨_, rfl, _, _, rfl⟩ := hu
    obtain ⟨st, hst⟩ := hc.lido
    refine calc_values hst ?_
    intro k c' hu
    unfold UsablePool at hu
    rw [J.lido_kind] at hu
    obtain ⟨y, rfl, _, rfl, hy, _⟩ := hu
    have := readLido_unchecked (readLido_ok.2 hy)
    rw [hx] at this; injection this with this; rw [this]
  | marinade o =>
    obtain ⟨x, rfl, hx⟩ := h
    simp only [KnownCalc.usable, bind_ok, okOr_ok, pure_ok, Option.some.injEq] at hu
    obtain ⟨_, rfl, _, _, rfl⟩ := hu
    obtain ⟨st, hst⟩ := hc.marinade
    refine calc_values hst ?_
    intro k c' hu
    unfold UsablePool at hu
    rw [J.marinade_kind] at hu
    obtain ⟨y, rfl, _, rfl, hy, _⟩ := hu
    have := readMarinade_unchecked (readMarinade_ok.2 hy)
    rw [hx] at this; injection this with this; rw [this]
  | spl kd mt p o =>
    obtain ⟨x, rfl, hx⟩ := h
    simp only [KnownCalc.usable, bind_ok, okOr_ok, pure_ok, Option.some.injEq] at hu
    obtain ⟨_, rfl, _, _, rfl⟩ := hu
    obtain ⟨st, hst⟩ := hc.spl kd
    refine calc_values hst ?_
    intro k c' hu
    obtain ⟨h1, h2⟩ := hk
    simp only [KnownCalc.lstMint] at hu
    have hk := hr.pool e he kd p h1 k c' (h2 ▸ hu)
    subst hk
    unfold UsablePool at hu
    rw [J.spl_kind] at hu
    obtain ⟨y, rfl, _, hy, _⟩ := hu
    have := readSplPool_ok.2 hy
    rw [hx] at this; injection this with this; injection this with _ this; rw [this]

theorem Loaded.usable {k : KnownCalc} (h : Loaded J ch k) {e : SanctumLst} (he : e ∈ list) (hk : k.Of e) :
    k.usable ch.epoch = .ok .wsol ∨ ∃ pc a, pc.programId = k.programId J ∧ IsStakePool J list a ∧
      ∀ c, UsablePool pc ch a (k.lstMint J) c → k.usable ch.epoch = .ok c := by
  cases k with
  | wsol => exact .inl rfl
  | lido o =>
    obtain ⟨x, rfl, hx⟩ := h
    refine .inr ⟨J.lido, J.lidoState, rfl, .inl rfl, ?_⟩
    intro c hu
    unfold UsablePool at hu
    rw [J.lido_kind] at hu
    obtain ⟨y, rfl, _, _, hy, hep⟩ := hu
    have := readLido_unchecked (readLido_ok.2 hy)
    rw [hx] at this; injection this with this; subst this
    simp [KnownCalc.usable, okOr, LidoCalc.verifyUpdated, hep, require, bind, Except.bind, pure, Except.pure]
  | marinade o =>
    obtain ⟨x, rfl, hx⟩ := h
    refine .inr ⟨J.marinade, J.marinadeState, rfl, .inr (.inl rfl), ?_⟩
    intro c hu
    unfold UsablePool at hu
    rw [J.marinade_kind] at hu
    obtain ⟨y, rfl, _, _, hy, hp1, hp2⟩ := hu
    have := readMarinade_unchecked (readMarinade_ok.2 hy)
    rw [hx] at this; injection this with this; subst this
    simp [KnownCalc.usable, okOr, MarinadeCalc.verifyCanWithdrawStake, hp1, hp2, require, bind, Except.bind, pure, Except.pure]
  | spl kd mt p o =>
    obtain ⟨x, rfl, hx⟩ := h
    obtain ⟨h1, h2⟩ := hk
    refine .inr ⟨J.spl kd, p, rfl, .inr (.inr ⟨e, he, kd, h1⟩), ?_⟩
    intro c hu
    unfold UsablePool at hu
    rw [J.spl_kind] at hu
    obtain ⟨y, rfl, _, hy, hep⟩ := hu
    have := readSplPool_ok.2 hy
    rw [hx] at this; injection this with this; injection this with _ this; subst this
    simp [KnownCalc.usable, okOr, SplCalc.verifyUpdated, hep, require, bind, Except.bind, pure, Except.pure]

theorem Loaded.figures {k : KnownCalc} (h : Loaded J ch k) {e : SanctumLst} (he : list.find? (fun e => e.mint = k.lstMint J) = some e)
    (hk : k.Of e) {c : AnyCalc} (hc : k.figures = some c) : ChainFigures J list ch (k.lstMint J) c := by
  cases k with
  | wsol => injection hc with hc; subst hc; rfl
  | lido o => obtain ⟨x, rfl, hx⟩ := h; injection hc with hc; subst hc; exact ⟨rfl, hx⟩
  | marinade o => obtain ⟨x, rfl, hx⟩ := h; injection hc with hc; subst hc; exact ⟨rfl, hx⟩
  | spl kd mt p o =>
    obtain ⟨x, rfl, hx⟩ := h
    injection hc with hc; subst hc
    obtain ⟨h1, h2⟩ := hk
    exact ⟨e, he, kd, p, h1, hx⟩

theorem updateFees_closed (hs : Shows J list ch F w m) (hF : F.Ok J.fc) {l : List (Pubkey × Option FeeAccount)}
    (hb : ∀ mint f, (mint, some f) ∈ l → f.bump = (J.fc.findFee mint).2) (h : ∀ mint f, (mint, some f) ∈ l → F.feesOf J.fc mint ≠ none) :
    ∀ mint f, (mint, some f) ∈ (updateFees J.fc m l).1 → F.feesOf J.fc mint ≠ none := by
  induction l with
  | nil => simp [updateFees]
  | cons e l ih =>
    obtain ⟨mt, fa⟩ := e
    have ih := ih (fun mint f hmf => hb mint f (List.mem_cons_of_mem _ hmf)) (fun mint f hmf => h mint f (List.mem_cons_of_mem _ hmf))
    have h0 : ∀ f, fa = some f → f.bump = (J.fc.findFee mt).2 := fun f hf => hb mt f (by simp [hf])
    intro mint f hmf
    simp only [updateFees] at hmf
    split at hmf
    · exact h _ _ hmf
    · rename_i k hk
      have hk' := feeAccountAddr_eq h0 hk
      split at hmf
      · rcases List.mem_cons.1 hmf with e | hmf
        · injection e with e1 e2; subst e1; exact h mint f (by simp [e2])
        · exact ih _ _ hmf
      · rename_i b hm
        split at hmf
        · exact h _ _ hmf
        · rcases List.mem_cons.1 hmf with e | hmf
          · injection e with e1 e2; subst e1
            subst hk'
            obtain ⟨f', hf', _⟩ := hs.fee_ok hF (J.fc.findFee_addr mint) hm
            simp [FlatFee.feesOf, hf']
          · exact ih _ _ hmf

theorem FlatProg.update_closed (hs : Shows J list ch F w m) (hF : F.Ok J.fc) {p : FlatProg}
    (hb : ∀ mint f, (mint, some f) ∈ p.fees → f.bump = (J.fc.findFee mint).2) (h : ∀ mint f, (mint, some f) ∈ p.fees → F.feesOf J.fc mint ≠ none) :
    ∀ mint f, (mint, some f) ∈ (p.update J.fc m).1.fees → F.feesOf J.fc mint ≠ none := by
  unfold FlatProg.update
  split
  · exact updateFees_closed hs hF hb h
  · split
    · exact h
    · exact updateFees_closed hs hF hb h

theorem updateFull_closed (hs : Shows J list ch F w m) (hF : F.Ok J.fc) {S : SPool} (hi : PricingInv J S) (h : NoneClosed J F S) :
    NoneClosed J F (S.updateFull J m).1 := by
  have i2 := updatePricing_inv hs hF (hi.same (T := (S.updateData J m).1) rfl rfl)
  have i3 := i2.same (updateList_same J m _).1 (updateList_same J m _).2.1
  have h2 : NoneClosed J F ((S.updateData J m).1.updatePricing J m).1 := by
    unfold SPool.updatePricing
    cases hp : (S.updateData J m).1.pricing with
    | none => intro pp mint f e; simp only at e; rw [hp] at e; cases e
    | some pp =>
      intro pp' mint f e
      injection e with e; subst e
      exact FlatProg.update_closed hs hF (hi.bump pp hp) (fun mint f => h pp mint f hp) mint f
  have h3 : NoneClosed J F (((S.updateData J m).1.updatePricing J m).1.updateList J m).1 := by
    unfold NoneClosed; rw [(updateList_same J m _).1]; exact h2
  have h4 : NoneClosed J F ((((S.updateData J m).1.updatePricing J m).1.updateList J m).1.updatePool J m).1 := by
    generalize (((S.updateData J m).1.updatePricing J m).1.updateList J m).1 = T at i3 h3
    cases hb : m J.cfg.poolState with
    | none => unfold SPool.updatePool; simp only [hb]; exact h3
    | some b =>
      cases hl : T.lstList.lsts with
      | error e => unfold SPool.updatePool; simp only [hb, hl]; exact h3
      | ok lsts =>
        obtain ⟨p, _, hp⟩ := hs.pool_ok hb
        rcases updatePool_eq hb hl hp i3 with ⟨_, e⟩ | ⟨_, _, pp, hpp, e⟩ | ⟨_, _, e⟩
        · rw [e]; intro pp mint f e; cases e
        · rw [e]
          intro pp' mint f e'
          injection e' with e'; subst e' hpp
          exact FlatProg.update_closed hs hF (by simp) (by simp) mint f
        · rw [e]; exact h3
  unfold NoneClosed SPool.updateFull
  simp only
  rw [(updateSupply_same J m _).1]; exact h4

/-! ### Both rounds -/

theorem toFetch_slot {S : SPool} {lsts : List LstState} {i : Nat} {s : LstState} {d : LstData} (hl : S.lstList.lsts = .ok lsts)
    (hs : lsts[i]? = some s) (hd : S.data[i]? = some (some d)) {k : Pubkey} (hk : k ∈ lstToFetch J s (some d)) : k ∈ S.toFetch J := by
  unfold SPool.toFetch
  simp only [hl]
  have : (s, some d) ∈ lsts.zip S.data := List.mem_iff_getElem?.2 ⟨i, by rw [List.getElem?_zip_eq_some]; exact ⟨hs, hd⟩⟩
  simp only [List.mem_append, List.mem_flatMap]
  exact .inl (.inr ⟨_, this, hk⟩)

/-- What one slot holds after an update with all the accounts it asks for. -/
theorem slot_update {asked : List Pubkey} (hs : Answers J list ch F w asked m) {S : SPool} (hc : CacheInv J list S) (hw : Inv J.cfg w)
    (hr : ListRight J list ch w) (hl : S.lstList.lsts = .ok w.ctl.lsts) (hok : (S.updateData J m).2 = .ok ())
    {i : Nat} {s : LstState} {d' : LstData} (hsi : w.ctl.lsts[i]? = some s) (hd' : (S.updateData J m).1.data[i]? = some (some d'))
    (hask : ∀ d, S.data[i]? = some (some d) → ∀ k ∈ lstToFetch J s (some d), k ∈ asked) :
    ∃ e ∈ list, d'.solCalc.Of e ∧ Loaded J ch d'.solCalc ∧ d'.solCalc.programId J = s.solValueCalculator ∧ d'.solCalc.lstMint J = s.mint ∧
      list.find? (fun e => e.mint = s.mint) = some e ∧
      ∃ mt res ra, w.led.mints s.mint = some mt ∧ J.cfg.ata J.cfg.poolState mt.program s.mint s.poolReservesBump = some res ∧
        w.led.tok res = some ra ∧ d'.reserves = some ra.amount := by
  rw [updateData_get] at hd'
  obtain ⟨o, ho, hd'⟩ := Option.map_eq_some_iff.1 hd'
  obtain ⟨d, rfl, _⟩ := updateSlot_some J list m S i hd'
  have hslot : (S.updateSlot J m i (some d)).2 = .ok () := by
    refine (foldl_andR_ok hok).2 _ (List.mem_map.2 ⟨S.updateSlot J m i (some d), ?_, rfl⟩)
    exact List.mem_iff_getElem?.2 ⟨i, by simp [List.getElem?_mapIdx, ho]⟩
  obtain ⟨lsts, hl', _, hal⟩ := hc.aligned
  rw [hl] at hl'; injection hl' with hl'; subst hl'
  obtain ⟨am, ap⟩ := hal i s d hsi ho
  obtain ⟨e, hfind, htp, hof⟩ := hc.from_list d (List.mem_of_getElem? ho)
  have hel := List.mem_of_find?_eq_some hfind
  have hem : e.mint = s.mint := by
    have := List.find?_some hfind
    simpa [am] using this
  simp only [SPool.updateSlot, hl, hsi] at hd' hslot
  injection hd' with hd'
  subst hd'
  obtain ⟨ok1, ok2⟩ := andR_ok.1 hslot
  obtain ⟨u1, u2, u3⟩ := KnownCalc.update_same J m d.solCalc
  have hload := KnownCalc.update_spec hs hel hof
    (fun a ha => hask d ho a (List.mem_append_left _ ha)) ok1
  refine ⟨e, hel, u3 e hof, hload, u2.trans ap, u1.trans am, am ▸ hfind, ?_⟩
  obtain ⟨mt, res, acc, ra, fa, ha⟩ := hw.accs s (List.mem_of_getElem? hsi)
  refine ⟨mt, res, ra, ha.mint, ha.res_key, ha.res, ?_⟩
  have htp' : mt.program = d.tokenProgram := by rw [htp]; exact hr.program e hel mt (hem ▸ ha.mint)
  have hres : poolReserves J.cfg s d.tokenProgram = .ok res := by simp [poolReserves, okOr_ok, ← htp', ha.res_key]
  obtain ⟨b, hb⟩ := Option.ne_none_iff_exists'.1 (hs.has_token res
    (hask d ho res (List.mem_append_right _ (by simp [hres]))) (by simp [ha.res]))
  have hbal := hs.token res ra b ha.res hb
  simp [LstData.fetchReserves, hres, hb, hbal]

/-- What one slot holds after the second round. -/
theorem slot_spec {asked : List Pubkey} (hs : Answers J list ch F w asked m) {S : SPool} (hc : CacheInv J list S) (hw : Inv J.cfg w)
    (hr : ListRight J list ch w) (hl : S.lstList.lsts = .ok w.ctl.lsts) (hask : ∀ k ∈ S.toFetch J, k ∈ asked) (hok : (S.updateData J m).2 = .ok ())
    {i : Nat} {s : LstState} {d' : LstData} (hsi : w.ctl.lsts[i]? = some s) (hd' : (S.updateData J m).1.data[i]? = some (some d')) :
    ∃ e ∈ list, d'.solCalc.Of e ∧ Loaded J ch d'.solCalc ∧ d'.solCalc.programId J = s.solValueCalculator ∧ d'.solCalc.lstMint J = s.mint ∧
      list.find? (fun e => e.mint = s.mint) = some e ∧
      ∃ mt res ra, w.led.mints s.mint = some mt ∧ J.cfg.ata J.cfg.poolState mt.program s.mint s.poolReservesBump = some res ∧
        w.led.tok res = some ra ∧ d'.reserves = some ra.amount :=
  slot_update hs hc hw hr hl hok hsi hd' fun _ ho _ hk => hask _ (toFetch_slot hl hsi ho hk)

end

/-- C53. However the cache was made, if it was fed only with accounts of the chain as they were at one time or another, then two rounds of fetching the
accounts it asks for and updating it, while the chain stands still, make it show the chain, provided the second update reports success, no fee account it
holds has been closed, and the library's LST list is right. It then also holds everything it needs to quote. The first update may report errors. -/
theorem C53_refresh {J : JupCfg} {L : RatioLib} {list : List SanctumLst} (hg : GoodList J list) {S₀ : SPool} (hi : JupInit J list S₀) {ops : List JupOp}
    (hfed : FedFromChain J L list ops) {S : SPool} (hS : S₀.after J ops = S)
    {w₀ : World} (hf : World.Fresh J.cfg w₀) {h : List (Tx J.cfg)} {w : World} (hw : runHistory L w₀ h = w) (hp : w.ctl.pool ≠ none)
    {cs : List (FlatCall J.fc)} (hst : (flatHistory L cs).state ≠ none) (hclosed : NoneClosed J (flatHistory L cs) S)
    {ch : OnChain} (hep : S.epoch = ch.epoch) (hr : ListRight J list ch w)
    {env : Env J.cfg} (hcalc : CalcsServed J L env ch) (hflat : env.FlatPriced L J.fc (flatHistory L cs) J.fc.programId)
    {m₁ m₂ : AccMap} {S₁ S₂ : SPool} (h₁ : Answers J list ch (flatHistory L cs) w (S.toFetch J) m₁) (hS₁ : (S.updateFull J m₁).1 = S₁)
    (h₂ : Answers J list ch (flatHistory L cs) w (S₁.toFetch J) m₂) (hS₂ : S₁.updateFull J m₂ = (S₂, .ok ())) :
    Fresh J L env cs S₂ w ∧ Full J list ch (flatHistory L cs) S₂ w := by
  have hF : (flatHistory L cs).Ok J.fc := C26_bounds cs
  have hinv : Inv J.cfg w := hw ▸ (history_inv (L := L) hf h).2
  have c0 : CacheInv J list S := hS ▸ SPool.after_inv ops (hi.inv hg)
  have p0 : PricingInv J S := hS ▸ hfed.inv hi.pricingInv
  have c1 : CacheInv J list S₁ := by rw [← hS₁]; exact JupOp.run_inv (.full m₁) c0
  have p1 : PricingInv J S₁ := by rw [← hS₁]; exact updateFull_inv h₁.toShows hF p0
  have n1 : NoneClosed J (flatHistory L cs) S₁ := by rw [← hS₁]; exact updateFull_closed h₁.toShows hF p0 hclosed
  have s1 : Synced J S₁ w := by
    rw [← hS₁]
    exact updateFull_synced h₁ hF c0 p0 ⟨by simp [SPool.toFetch], by simp [SPool.toFetch]⟩ hp
  have e1 : S₁.epoch = S.epoch := by
    rw [← hS₁]; unfold SPool.updateFull
    simp only [(updateSupply_same J m₁ _).2.2, (updatePool_same J m₁ _).2, (updateList_same J m₁ _).2.2.2, (updatePricing_same J m₁ _).2.2, SPool.updateData]
  clear hS₁ hS hclosed
  -- the five steps of the second round
  obtain ⟨p, hpool1, hwp, hpp1⟩ := s1.pool
  have hfst := congrArg Prod.fst hS₂
  have hsnd := congrArg Prod.snd hS₂
  unfold SPool.updateFull at hfst hsnd
  simp only at hfst hsnd
  obtain ⟨hsnd, ok5⟩ := andR_ok.1 hsnd
  obtain ⟨hsnd, ok4⟩ := andR_ok.1 hsnd
  obtain ⟨hsnd, ok3⟩ := andR_ok.1 hsnd
  obtain ⟨ok1, ok2⟩ := andR_ok.1 hsnd
  clear hsnd
  generalize hT1 : (S₁.updateData J m₂).1 = T1 at *
  generalize hT2 : (T1.updatePricing J m₂).1 = T2 at *
  generalize hT3 : (T2.updateList J m₂).1 = T3 at *
  generalize hT4 : (T3.updatePool J m₂).1 = T4 at *
  have l1 : T1.lstList = S₁.lstList ∧ T1.pricing = S₁.pricing ∧ T1.poolState = S₁.poolState ∧ T1.epoch = S₁.epoch := by
    rw [← hT1]; exact ⟨rfl, rfl, rfl, rfl⟩
  have k2 := updatePricing_keeps J m₂ T1
  have k2' := updatePricing_same J m₂ T1
  rw [hT2] at k2 k2'
  have k3 := updateList_same J m₂ T2
  rw [hT3] at k3
  have hlst2 : T2.lstList.lsts = .ok w.ctl.lsts := by rw [k2.1, l1.1]; exact s1.lsts
  have hlist : J.cfg.lstStateList ∈ S₁.toFetch J := by simp [SPool.toFetch]
  have hpoolask : J.cfg.poolState ∈ S₁.toFetch J := by simp [SPool.toFetch]
  have d3 : T3.data = T1.data := by rw [← hT3, updateList_same_list h₂.toShows (h₂.has_lsts hlist) hlst2, k2.2]
  have hlst3 : T3.lstList.lsts = .ok w.ctl.lsts := by rw [← hT3]; exact updateList_shows h₂.toShows (h₂.has_lsts hlist) hlst2
  have k4 := updatePool_keeps J m₂ T3
  have k4' := updatePool_same J m₂ T3
  rw [hT4] at k4 k4'
  have k5 := updateSupply_keeps J m₂ T4
  have k5' := updateSupply_same J m₂ T4
  rw [hfst] at k5 k5'
  have p2 : PricingInv J T2 := by rw [← hT2]; exact updatePricing_inv h₂.toShows hF (p1.same l1.2.1 l1.2.2.1)
  have p3 : PricingInv J T3 := p2.same k3.1 k3.2.1
  -- the pool state
  obtain ⟨b, hb⟩ := Option.ne_none_iff_exists'.1 (h₂.has_pool hpoolask hp)
  obtain ⟨p', hwp', hbp⟩ := h₂.toShows.pool_ok hb
  rw [hwp] at hwp'; injection hwp' with hwp'; subst hwp'
  have pricing3 : T3.pricing = T2.pricing := k3.1
  have pool4 : T4.poolState = some b ∧ (p.pricingProgram = J.fc.programId → T4.pricing = T3.pricing) ∧
      (p.pricingProgram ≠ J.fc.programId → T4.pricing = none) := by
    rcases updatePool_eq hb hlst3 hbp p3 with ⟨hn, e⟩ | ⟨hpr, hnone, pp, hpp, e⟩ | ⟨hpr, _, e⟩
    · rw [e] at hT4; subst hT4; exact ⟨rfl, fun h => absurd h hn, fun _ => rfl⟩
    · exfalso
      have hne := hpp1 hpr
      rw [k3.1] at hnone
      obtain ⟨pp1, hpp1'⟩ := Option.ne_none_iff_exists'.1 hne
      rw [← hT2] at hnone
      unfold SPool.updatePricing at hnone
      rw [l1.2.1, hpp1'] at hnone
      cases hnone
    · rw [e] at hT4; subst hT4; exact ⟨rfl, fun _ => rfl, fun h => absurd hpr h⟩
  have poolS2 : S₂.pool = .ok p := by rw [SPool.pool_some (k5'.2.1.trans pool4.1)]; exact hbp
  have lstsS2 : S₂.lstList.lsts = .ok w.ctl.lsts := by rw [k5.1, k4.1]; exact hlst3
  have dataS2 : S₂.data = T1.data := by rw [k5.2, k4.2, d3]
  have epochS2 : S₂.epoch = ch.epoch := by rw [k5'.2.2, k4'.2, k3.2.2.2, k2'.2.2, l1.2.2.2, e1, hep]
  -- the pricing program
  have pricingS2 : ∀ pp, S₂.pricing = some pp → p.pricingProgram = J.fc.programId ∧ pp.state = (flatHistory L cs).state ∧
      ∀ e ∈ pp.fees, e.2 = (flatHistory L cs).feesOf J.fc e.1 := by
    intro pp hpp
    rw [k5'.1] at hpp
    have hpr : p.pricingProgram = J.fc.programId := by
      by_contra hn
      rw [pool4.2.2 hn] at hpp; cases hpp
    refine ⟨hpr, ?_⟩
    rw [pool4.2.1 hpr, k3.1] at hpp
    obtain ⟨pp1, hpp1'⟩ := Option.ne_none_iff_exists'.1 (hpp1 hpr)
    have hup : T1.updatePricing J m₂ = ({ T1 with pricing := some (pp1.update J.fc m₂).1 }, (pp1.update J.fc m₂).2) := by
      unfold SPool.updatePricing; rw [l1.2.1, hpp1']
    rw [hup] at ok2 hT2
    rw [← hT2] at hpp
    injection hpp with hpp; subst hpp
    refine FlatProg.update_spec h₂ hF (p1.bump pp1 hpp1') ?_ hst (fun mint f => n1 pp1 mint f hpp1') ok2
    intro k hk
    unfold SPool.toFetch
    rw [hpp1']
    simp [hk]
  -- the supply
  obtain ⟨mt, hmt, _⟩ := hinv.lp p hwp
  have supplyS2 : S₂.lpSupply = some mt.supply := by
    have hask : p.lpTokenMint ∈ S₁.toFetch J := by unfold SPool.toFetch; simp [hpool1]
    obtain ⟨bs, hbs⟩ := Option.ne_none_iff_exists'.1 (h₂.has_mint _ hask (by simp [hmt]))
    have hsup := h₂.mint _ mt bs hmt hbs
    rw [← hfst]
    unfold SPool.updateSupply
    simp only [pool4.1, hbp, hbs, hsup]
  have slot : ∀ {i : Nat} {s : LstState} {d : LstData}, w.ctl.lsts[i]? = some s → S₂.data[i]? = some (some d) →
      ∃ e ∈ list, d.solCalc.Of e ∧ Loaded J ch d.solCalc ∧ d.solCalc.programId J = s.solValueCalculator ∧ d.solCalc.lstMint J = s.mint ∧
      list.find? (fun e => e.mint = s.mint) = some e ∧
      ∃ mt res ra, w.led.mints s.mint = some mt ∧ J.cfg.ata J.cfg.poolState mt.program s.mint s.poolReservesBump = some res ∧
        w.led.tok res = some ra ∧ d.reserves = some ra.amount := by
    intro i s d hs hd
    rw [dataS2, ← hT1] at hd
    exact slot_spec h₂ c1 hinv hr s1.lsts (fun _ h => h) ok1 hs hd
  constructor
  · constructor
    · intro q hq
      rw [poolS2] at hq; injection hq with hq; subst hq; exact hwp
    · intro l hl
      rw [lstsS2] at hl; injection hl
    · intro q n x hq hn hx
      rw [poolS2] at hq; injection hq with hq; subst hq
      rw [supplyS2] at hn; injection hn with hn
      rw [hmt] at hx; injection hx with hx; subst hx; exact hn
    · intro i s d n x k hs hd hn hx hk
      obtain ⟨e, _, _, _, _, _, _, mt', res, ra, h1, h2, h3, h4⟩ := slot hs hd
      rw [h1] at hx; injection hx with hx; subst hx
      rw [h2] at hk; injection hk with hk; subst hk
      rw [h4] at hn; injection hn with hn; subst hn
      exact bal_some h3
    · intro i s d c hs hd hu
      obtain ⟨e, he, hof, hload, h1, h2, _⟩ := slot hs hd
      have := hload.values hcalc hr he hof hu
      rw [h1, h2] at this
      exact this
    · intro q pp hq hpp
      rw [poolS2] at hq; injection hq with hq; subst hq
      rw [(pricingS2 pp hpp).1]; exact hflat
    · intro pp mint a hpp hfee
      obtain ⟨_, _, hfees⟩ := pricingS2 pp hpp
      unfold FlatProg.fee at hfee
      split at hfee
      · rename_i mt' a' hfind
        injection hfee with hfee; subst hfee
        have hm := List.mem_of_find?_eq_some hfind
        have := hfees _ hm
        have hmt' : mt' = mint := by simpa using List.find?_some hfind
        subst hmt'
        exact this.symm
      · cases hfee
    · intro pp s hpp hs
      rw [← (pricingS2 pp hpp).2.1]; exact hs
  · constructor
    · exact ⟨p, poolS2, hwp⟩
    · exact lstsS2
    · intro q hq
      rw [hwp] at hq; injection hq with hq; subst hq
      rw [supplyS2, hmt]; rfl
    · intro i d hd
      have hlen : i < w.ctl.lsts.length := by
        obtain ⟨lsts, hl, hle, _⟩ := c1.aligned
        rw [s1.lsts] at hl; injection hl with hl
        have : i < S₁.data.length := by
          have := (List.getElem?_eq_some_iff.1 hd).1
          rw [dataS2, ← hT1] at this
          simpa [SPool.updateData] using this
        rw [hl]; omega
      obtain ⟨e, _, _, _, _, _, mt', res, ra, _, _, _, h4⟩ := slot (List.getElem?_eq_getElem hlen) hd
      simp [h4]
    · intro i s d hs hd
      obtain ⟨e, he, hof, hload, h1, h2, _⟩ := slot hs hd
      have := hload.usable he hof
      rw [h1, h2, ← epochS2] at this
      exact this
    · intro i s d c hs hd hc
      obtain ⟨e, he, hof, hload, h1, h2, hfind, _⟩ := slot hs hd
      rw [← h2] at hfind ⊢
      exact hload.figures hfind hof hc
    · exact epochS2
    · intro q hq hpr
      rw [hwp] at hq; injection hq with hq; subst hq
      have hne : S₂.pricing ≠ none := by
        rw [k5'.1, pool4.2.1 hpr, k3.1, ← hT2]
        obtain ⟨pp1, hpp1'⟩ := Option.ne_none_iff_exists'.1 (hpp1 hpr)
        unfold SPool.updatePricing
        rw [l1.2.1, hpp1']
        simp
      obtain ⟨pp, hpp⟩ := Option.ne_none_iff_exists'.1 hne
      exact ⟨pp, hpp, (pricingS2 pp hpp).2⟩

/-! ### The hypotheses are met -/

namespace Ex

/-- As `fc`, with fee accounts at addresses apart from those of the reserves. -/
def rfc : FlatCfg where
  programId := 7
  stateId := 300
  initialManager := 301
  systemProgram := 11
  splToken := 8
  token22 := 9
  feeAddr m b := if b = 254 then some (1000000 + m) else none
  findFee m := (1000000 + m, 254)
  findFee_addr m := by simp
  findFee_u8 m := by show 254 < 256; decide
  feeAddr_inj := by
    intro m b m' b' k h h'
    split at h
    · split at h'
      · injection h with h; injection h' with h'; exact Nat.add_left_cancel (h.trans h'.symm)
      · cases h'
    · cases h

def rview : FlatView rfc where
  foreign _ := none
  mints := led.mints
  pda _ := rfl

def rhist : List (FlatCall rfc) :=
  [⟨rview, [sg 40, rw 300, ro 11], FlatIx.initialize.encode⟩,
   ⟨rview, [sg 301, sg 40, rw 1000021, ro 21, ro 300, ro 11], (FlatIx.addLst 30 20).encode⟩,
   ⟨rview, [sg 301, sg 40, rw 1000022, ro 22, ro 300, ro 11], (FlatIx.addLst 40 (-10)).encode⟩,
   ⟨rview, [sg 301, rw 300], (FlatIx.setLpWithdrawalFee 25).encode⟩]

def rjup : JupCfg := { jup with fc := rfc }

/-- The stake pools: Lido's at 700, its program 702 with code at 703; an SPL pool at 750. -/
def rch : OnChain where
  owner k := if k = 750 then 722 else 0
  data k := if k = 700 then lidoBytes 0 else if k = 703 then toLE 4 3 ++ toLE 8 17 ++ List.replicate 33 0 else []
  epoch := 0

/-- The environment of these programs: 31 is the wrapped SOL calculator, 32 the Lido calculator, 7 the flat-fee program. -/
def renv : Env cfg := Env.pure cfg (fun p ms q =>
    if p = 31 then (if ms.head?.map Acc.key = some 21 then AnyCalc.wsol.reply .ex q else .error .token)
    else if p = 32 then (calcProcess .ex rjup.lido rch (some ⟨602, 17⟩) ms q.ix).bind fun x => okOr x.2 .faultySolValueCalculator
    else .error .token)
  fun _ ms q => (flatProcess .ex rview (flatHistory .ex rhist) ms q.flat).bind fun x => okOr x.2 .faultyPricingProgram

def rkeys : List Pubkey := [1, 2, 20, 300, 700, 1000021, 1000022, 202602, 243065]

/-- The accounts an RPC node holds for the example. -/
def rfull (w : World) : AccMap := fun k =>
  if k ∉ rkeys then none
  else if k = 1 then w.ctl.pool.map fun _ => ⟨8, (bytes w.ctl).pool⟩
  else if k = 2 then some ⟨8, (bytes w.ctl).lsts⟩
  else if k = 20 then (mintBytes w.led 20).map (⟨8, ·⟩)
  else if k = 300 then some ⟨8, FlatState.bytes ⟨301, 25⟩⟩
  else if k = 700 then some ⟨8, lidoBytes 0⟩
  else if k = 1000021 then some ⟨8, FeeAccount.bytes ⟨254, 30, 20⟩ 3⟩
  else if k = 1000022 then some ⟨8, FeeAccount.bytes ⟨254, 40, -10⟩ 3⟩
  else (tokenBytes w.led k).map (⟨8, ·⟩)

/-- Its answer to a request. -/
def rfetch (w : World) (asked : List Pubkey) : AccMap := fun k => if k ∈ asked then rfull w k else none

def r0 : SPool := (SPool.fromKeyed rjup jupList 0 2 ⟨8, (bytes (st 7).ctl).lsts⟩).toOption.getD ⟨⟨0, []⟩, none, none, none, [], 0⟩

/-- The cache has once been updated from an earlier state, with the accounts it asked for then. -/
def rops : List JupOp := [.full (rfetch (st 5) (r0.toFetch rjup)), .epoch 0]

def rS : SPool := r0.after rjup rops
def rS1 : SPool := (rS.updateFull rjup (rfetch (st 7) (rS.toFetch rjup))).1
def rS2 : SPool × R Unit := rS1.updateFull rjup (rfetch (st 7) (rS1.toFetch rjup))

theorem rhist_state : (flatHistory .ex rhist).state = some ⟨301, 25⟩ := by decide +kernel
theorem rhist_fees : (flatHistory .ex rhist).fees 1000021 = some ⟨254, 30, 20⟩ ∧ (flatHistory .ex rhist).fees 1000022 = some ⟨254, 40, -10⟩ := by
  decide +kernel

theorem rfull_some {w : World} {k : Pubkey} {b : Blob} (h : rfull w k = some b) : k ∈ rkeys ∧ b.addr = 8 := by
  unfold rfull at h
  split at h; · cases h
  rename_i hk
  refine ⟨by simpa using hk, ?_⟩
  split at h
  · obtain ⟨_, _, rfl⟩ := Option.map_eq_some_iff.1 h; rfl
  split at h; · injection h with h; subst h; rfl
  split at h
  · obtain ⟨_, _, rfl⟩ := Option.map_eq_some_iff.1 h; rfl
  split at h; · injection h with h; subst h; rfl
  split at h; · injection h with h; subst h; rfl
  split at h; · injection h with h; subst h; rfl
  split at h; · injection h with h; subst h; rfl
  obtain ⟨_, _, rfl⟩ := Option.map_eq_some_iff.1 h; rfl

/-- The balances and supplies read from the accounts are those of the ledger. -/
def rcheck (w : World) : Bool := rkeys.all fun k =>
  (match w.led.tok k, rfull w k with
    | some t, some b => decide ((rjup.balance b).toOption = some t.amount)
    | _, _ => true) &&
  (match w.led.mints k, rfull w k with
    | some x, some b => decide ((rjup.supply b).toOption = some x.supply)
    | _, _ => true)

theorem toOption_ok {α : Type} {x : R α} {a : α} (h : x.toOption = some a) : x = .ok a := by
  cases x with
  | error e => cases h
  | ok y => injection h with h; rw [h]

theorem st_range (n : Nat) (h : (historyEvents .ex w0 (hist.take n)).all (fun e => actKeys e.act) = true) : (st n).ctl.InRange :=
  C29_in_range w0_fresh ⟨by decide +kernel, by decide +kernel⟩ (historyKeys_of h)

theorem rshowsF {F : FlatFee} (hstate : F.state = some ⟨301, 25⟩) (hfees : F.fees 1000021 = some ⟨254, 30, 20⟩ ∧ F.fees 1000022 = some ⟨254, 40, -10⟩)
    {w : World} (hr : w.ctl.InRange) (hc : rcheck w = true) (asked : List Pubkey) : Shows rjup jupList rch F w (rfetch w asked) := by
  have hget : ∀ {k b}, rfetch w asked k = some b → rfull w k = some b := by
    intro k b h
    unfold rfetch at h
    split at h
    · exact h
    · cases h
  have hck := fun k hk => List.all_eq_true.1 hc k hk
  constructor
  · intro k b h
    rw [(rfull_some (hget h)).2]
  · intro b h
    have h : (w.ctl.pool.map fun _ => (⟨8, (bytes w.ctl).pool⟩ : Blob)) = some b := hget h
    obtain ⟨p, hp, rfl⟩ := Option.map_eq_some_iff.1 h
    refine ⟨p, 7, hp, hr.pool p hp, by decide, ?_⟩
    simp [bytes, hp]
  · intro b h
    have h : some (⟨8, (bytes w.ctl).lsts⟩ : Blob) = some b := hget h
    injection h with h; subst h
    refine ⟨w.ctl.lsts.map fun s => (s, 5), ?_, rfl, by simp [Function.comp_def]⟩
    intro x hx
    obtain ⟨s, hs, rfl⟩ := List.mem_map.1 hx
    exact ⟨hr.lsts s hs, by show 5 < 2 ^ 40; decide⟩
  · intro k t b ht h
    have h := hget h
    have := hck k (rfull_some h).1
    simp only [ht, h, Bool.and_eq_true] at this
    exact toOption_ok (of_decide_eq_true this.1)
  · intro k x b hx h
    have h := hget h
    have := hck k (rfull_some h).1
    simp only [hx, h, Bool.and_eq_true] at this
    exact toOption_ok (of_decide_eq_true this.2)
  · intro b h
    have h : some (⟨8, FlatState.bytes ⟨301, 25⟩⟩ : Blob) = some b := hget h
    injection h with h; subst h
    exact ⟨_, hstate, by decide, rfl⟩
  · intro mint bump k b hk h
    have h := hget h
    have hk : (if bump = 254 then some (1000000 + mint) else none) = some k := hk
    have hge : 1000000 ≤ k := by
      split at hk
      · injection hk with hk; subst hk; exact Nat.le_add_right _ _
      · cases hk
    have hmem := (rfull_some h).1
    simp only [rkeys, List.mem_cons, List.not_mem_nil, or_false] at hmem
    rcases hmem with rfl | rfl | rfl | rfl | rfl | rfl | rfl | rfl | rfl
    · exact absurd hge (by decide)
    · exact absurd hge (by decide)
    · exact absurd hge (by decide)
    · exact absurd hge (by decide)
    · exact absurd hge (by decide)
    · have h : some (⟨8, FeeAccount.bytes ⟨254, 30, 20⟩ 3⟩ : Blob) = some b := h
      injection h with h; subst h
      exact ⟨_, 3, hfees.1, by decide, rfl⟩
    · have h : some (⟨8, FeeAccount.bytes ⟨254, 40, -10⟩ 3⟩ : Blob) = some b := h
      injection h with h; subst h
      exact ⟨_, 3, hfees.2, by decide, rfl⟩
    · exact absurd hge (by decide)
    · exact absurd hge (by decide)
  · intro k b hk h
    have h := hget h
    have hk : k = 700 ∨ k = 711 ∨ k = 750 := by
      rcases hk with hk | hk | ⟨e, he, kind, hk⟩
      · exact .inl hk
      · exact .inr (.inl hk)
      · simp only [jupList, List.mem_cons, List.not_mem_nil, or_false] at he
        rcases he with rfl | rfl | rfl
        · cases hk
        · cases hk
        · injection hk with _ hk; exact .inr (.inr hk.symm)
    rcases hk with rfl | rfl | rfl
    · have h : some (⟨8, lidoBytes 0⟩ : Blob) = some b := h
      injection h with h; subst h; rfl
    · have h : none = some b := h; cases h
    · have h : none = some b := h; cases h

/-- A request is answered in full if every account asked for is held. -/
theorem ranswersF {F : FlatFee} (hstate : F.state = some ⟨301, 25⟩) (hfees : F.fees 1000021 = some ⟨254, 30, 20⟩ ∧ F.fees 1000022 = some ⟨254, 40, -10⟩)
    {w : World} (hr : w.ctl.InRange) (hc : rcheck w = true) {asked : List Pubkey} (ha : asked.all (fun k => (rfull w k).isSome) = true) :
    Answers rjup jupList rch F w asked (rfetch w asked) := by
  have key : ∀ k ∈ asked, rfetch w asked k ≠ none := by
    intro k hk h
    have := List.all_eq_true.1 ha k hk
    simp only [rfetch, hk, if_true] at h
    rw [h] at this; cases this
  exact { rshowsF hstate hfees hr hc asked with
    has_pool := fun h _ => key _ h
    has_lsts := fun h => key _ h
    has_token := fun k h _ => key _ h
    has_mint := fun k h _ => key _ h
    has_state := fun h _ => key _ h
    has_fee := fun k h _ => key _ h
    has_stakePool := fun k h _ => key _ h }

theorem rshows {w : World} (hr : w.ctl.InRange) (hc : rcheck w = true) (asked : List Pubkey) :
    Shows rjup jupList rch (flatHistory .ex rhist) w (rfetch w asked) := rshowsF rhist_state rhist_fees hr hc asked

theorem ranswers {w : World} (hr : w.ctl.InRange) (hc : rcheck w = true) {asked : List Pubkey} (ha : asked.all (fun k => (rfull w k).isSome) = true) :
    Answers rjup jupList rch (flatHistory .ex rhist) w asked (rfetch w asked) := ranswersF rhist_state rhist_fees hr hc ha

theorem renv_lido : renv.CalcServed .ex rjup.lido rch (some ⟨602, 17⟩) := by
  intro n w ms q r l h
  have h := (Env.pure_calc.1 h).1
  have h : ((calcProcess .ex rjup.lido rch (some ⟨602, 17⟩) ms q.ix).bind fun x => okOr x.2 Err.faultySolValueCalculator) = .ok r := h
  cases hf : calcProcess .ex rjup.lido rch (some ⟨602, 17⟩) ms q.ix with
  | error e => rw [hf] at h; cases h
  | ok x =>
    rw [hf] at h
    have h : okOr x.2 Err.faultySolValueCalculator = .ok r := h
    rw [okOr_ok] at h
    exact ⟨x.1, by rw [← h]⟩

theorem renv_other {pc : PoolCfg} (h1 : pc.programId ≠ 31) (h2 : pc.programId ≠ 32) : renv.CalcServed .ex pc rch none := by
  intro n w ms q r l h
  have h := (Env.pure_calc.1 h).1
  simp only [h1, h2, if_false] at h
  cases h

theorem renv_served : CalcsServed rjup .ex renv rch where
  lido := ⟨_, renv_lido⟩
  marinade := ⟨_, renv_other (by decide) (by decide)⟩
  spl k := ⟨_, renv_other (by cases k <;> decide) (by cases k <;> decide)⟩
  wsol := by
    intro n w ms r l hm
    have hm : ms.head?.map Acc.key = some 21 := hm
    constructor
    · intro a h
      have h := (Env.pure_calc.1 h).1
      have h : (if ms.head?.map Acc.key = some 21 then AnyCalc.wsol.reply .ex (.lstToSol a) else .error .token) = .ok r := h
      rw [if_pos hm] at h; exact h
    · intro a h
      have h := (Env.pure_calc.1 h).1
      have h : (if ms.head?.map Acc.key = some 21 then AnyCalc.wsol.reply .ex (.solToLst a) else .error .token) = .ok r := h
      rw [if_pos hm] at h; exact h

theorem renv_priced : renv.FlatPriced .ex rfc (flatHistory .ex rhist) 7 := by
  intro n w ms q r l h
  have h := (Env.pure_price.1 h).1
  cases hf : flatProcess .ex rview (flatHistory .ex rhist) ms q.flat with
  | error e => rw [hf] at h; cases h
  | ok x =>
    rw [hf] at h
    have h : okOr x.2 Err.faultyPricingProgram = .ok r := h
    rw [okOr_ok] at h
    exact ⟨rview, x.1, by rw [hf, ← h]⟩

theorem rlist_right : ListRight rjup jupList rch (st 7) where
  program e he m hm := by
    have h : jupList.all (fun e => match (st 7).led.mints e.mint with | some m => decide (m.program = e.tokenProgram) | none => true) = true := by
      decide +kernel
    have := List.all_eq_true.1 h e he
    simp only [hm] at this
    exact of_decide_eq_true this
  pool e he kind p hp p' c hu := by
    simp only [jupList, List.mem_cons, List.not_mem_nil, or_false] at he
    rcases he with rfl | rfl | rfl
    · cases hp
    · cases hp
    · injection hp with hk hp; subst hk hp
      obtain ⟨x, _, ho, _⟩ := hu
      have ho : (if p' = 750 then 722 else 0) = 722 := ho
      split at ho
      · assumption
      · cases ho

theorem rops_fed : FedFromChain rjup .ex jupList rops := by
  intro o ho m hm
  simp only [rops, List.mem_cons, List.not_mem_nil, or_false] at ho
  rcases ho with rfl | rfl
  · injection hm with hm; subst hm
    exact ⟨rch, rhist, st 5, rshows (st_range 5 (by decide +kernel)) (by decide +kernel) _⟩
  · cases hm

theorem rinit : JupInit rjup jupList r0 := .keyed (e := 0) (k := 2) (b := ⟨8, (bytes (st 7).ctl).lsts⟩) (by decide +kernel)

theorem rclosed : NoneClosed rjup (flatHistory .ex rhist) rS := by
  have h : (rS.pricing.all fun pp => pp.fees.all fun e => ((flatHistory .ex rhist).feesOf rfc e.1).isSome) = true := by decide +kernel
  intro pp mint f hp hf hn
  rw [hp] at h
  have := List.all_eq_true.1 h _ hf
  have hn : (flatHistory .ex rhist).feesOf rfc mint = none := hn
  simp only [hn] at this
  cases this

theorem st_eq (n : Nat) : runHistory .ex w0 (hist.take n) = st n := rfl

theorem ranswer1 : Answers rjup jupList rch (flatHistory .ex rhist) (st 7) (rS.toFetch rjup) (rfetch (st 7) (rS.toFetch rjup)) :=
  ranswers (st_range 7 (by decide +kernel)) (by decide +kernel) (by decide +kernel)

theorem ranswer2 : Answers rjup jupList rch (flatHistory .ex rhist) (st 7) (rS1.toFetch rjup) (rfetch (st 7) (rS1.toFetch rjup)) :=
  ranswers (st_range 7 (by decide +kernel)) (by decide +kernel) (by decide +kernel)

theorem rS1_eq : (rS.updateFull rjup (rfetch (st 7) (rS.toFetch rjup))).1 = rS1 := by rw [rS1]

theorem rS2_eq : rS1.updateFull rjup (rfetch (st 7) (rS1.toFetch rjup)) = (rS2.1, .ok ()) := by
  have h : rS2.2 = .ok () := toOption_ok (by decide +kernel)
  rw [← h, rS2]

theorem rpool : (st 7).ctl.pool ≠ none := by decide +kernel
theorem repoch : rS.epoch = rch.epoch := by decide +kernel
theorem rstate : (flatHistory .ex rhist).state ≠ none := by rw [rhist_state]; simp
theorem rS_eq : r0.after rjup rops = rS := by rw [rS]

/-- The cache of the example, updated from an earlier state and then twice from the present one, shows the present one. -/
theorem rfresh : Fresh rjup .ex renv rhist rS2.1 (st 7) ∧ Full rjup jupList rch (flatHistory .ex rhist) rS2.1 (st 7) := by
  have hg : GoodList rjup jupList := jupList_good
  have hf : S.World.Fresh rjup.cfg w0 := w0_fresh
  have hp : renv.FlatPriced .ex rjup.fc (flatHistory .ex rhist) rjup.fc.programId := fun h => renv_priced h
  exact C53_refresh hg rinit rops_fed rS_eq hf (st_eq 7) rpool rstate rclosed repoch rlist_right renv_served hp ranswer1 rS1_eq ranswer2 rS2_eq

-- the earlier state's reserves were others
example : rS.data.map (·.map LstData.reserves) = [some (some 30000), some (some 20000)] ∧
    rS2.1.data.map (·.map LstData.reserves) = [some (some 36031), some (some 16016)] := by decide +kernel
-- the Lido calculator answers in this environment
example : (calcProcess .ex rjup.lido rch (some ⟨602, 17⟩) (poolMetas rjup.lido 22 700) (.lstToSol 1000)).toOption =
    some (some ⟨602, 17⟩, some ⟨1500, 1500⟩) := by decide +kernel
-- a closed fee account stays in the cache: `NoneClosed` is needed
example : ((rS2.1.updateFull rjup fun k => if k = 1000021 then none else rfetch (st 7) (rS2.1.toFetch rjup) k).1.pricing.map (·.fees.map (·.2.isSome))) =
    some [true, true] := by decide +kernel

end Ex

end S
