import Verif.Serde
import Verif.Client
import Verif.CalcPrograms
import Verif.FlatFee.Program
/-
Model of the Jupiter integration, `libs/s-jup-interface`, with the off-chain calculators and pricing programs it uses,
`libs/aggregate/s-sol-val-calc-prog-aggregate` and `libs/aggregate/s-pricing-prog-aggregate`.

An account handed to the library is its bytes together with the memory address they lie at (`bytemuck` checks alignment).
A `HashMap<Pubkey, D>` is a partial function. A function that changes `self` and returns a `Result` gives the new value and the
result. The crate's shared `Arc<AtomicU64>` epoch is a field that can change at any time.
-/
set_option autoImplicit false
namespace S

/-- The data of a fetched account and the address in memory where it lies. -/
structure Blob where
  addr : Nat
  bytes : List UInt8
deriving DecidableEq, Repr

/-- `HashMap<Pubkey, D>`. -/
abbrev AccMap := Pubkey → Option Blob

/-- `try_lst_state_list` on a fetched account (libs/s-controller-lib/src/accounts_serde.rs:18-23); padding dropped. -/
def Blob.lsts (b : Blob) : R (List LstState) :=
  (okOr (tryList lstElem b.addr b.bytes) .invalidLstStateListData).map (·.map Prod.fst)

/-- `try_pool_state` on a fetched account; padding dropped. -/
def Blob.pool (b : Blob) : R PoolState := (tryPoolState b.addr b.bytes).map Prod.fst

/-- `ProgramState`, generated/pricing-programs/flat_fee_interface/src/typedefs.rs. -/
def flatStateFields : List CField := [.pubkey, .u16]

/-- `FeeAccount`, generated/pricing-programs/flat_fee_interface/src/typedefs.rs: bump, padding, input fee, output fee. -/
def feeAccountFields : List CField := [.u8, .u8, .u16, .u16]

/-- `try_program_state`, libs/pricing-programs/flat-fee-lib/src/utils.rs:5-7. -/
def Blob.flatState (b : Blob) : R FlatState :=
  if b.addr % cAlign flatStateFields ≠ 0 ∨ b.bytes.length ≠ cSize flatStateFields then .error .invalidProgramStateData
  else match readStruct flatStateFields b.bytes with
    | [m, f] => .ok ⟨m, f⟩
    | _ => .error .invalidProgramStateData

/-- `try_fee_account`, libs/pricing-programs/flat-fee-lib/src/utils.rs:15-17. -/
def Blob.feeAccount (b : Blob) : R FeeAccount :=
  if b.addr % cAlign feeAccountFields ≠ 0 ∨ b.bytes.length ≠ cSize feeAccountFields then .error .unsupportedLstMint
  else match readStruct feeAccountFields b.bytes with
    | [bump, _, i, o] => .ok ⟨bump, i16OfNat i, i16OfNat o⟩
    | _ => .error .unsupportedLstMint

/-- The three SPL stake pool programs (s-sol-val-calc-prog-aggregate/src/{spl,sanctum_spl,sanctum_spl_multi}.rs). -/
inductive SplKind
  | spl | sanctumSpl | sanctumSplMulti
deriving DecidableEq, Repr

/-- The constants the library links against, and the two parsers of the external crate `sanctum_token_lib`. -/
structure JupCfg where
  cfg : Cfg
  fc : FlatCfg
  lido : PoolCfg
  lidoMint : Pubkey
  lidoState : Pubkey
  lido_kind : lido.kind = .lido lidoMint lidoState
  marinade : PoolCfg
  msolMint : Pubkey
  marinadeState : Pubkey
  marinade_kind : marinade.kind = .marinade msolMint marinadeState
  spl : SplKind → PoolCfg
  spl_kind : ∀ k, (spl k).kind = .spl
  wsolProgram : Pubkey
  wsolMint : Pubkey
  /-- `token_account_balance` -/
  balance : Blob → R Nat
  /-- `mint_supply` -/
  supply : Blob → R Nat

/-! ### Calculators -/

/-- `KnownLstSolValCalc`, s-sol-val-calc-prog-aggregate/src/lib.rs:26-35; `none` is a calculator whose account has not been fetched. -/
inductive KnownCalc
  | lido (fetched : Option LidoCalc)
  | marinade (fetched : Option MarinadeCalc)
  | wsol
  | spl (kind : SplKind) (lstMint stakePool : Pubkey) (fetched : Option SplCalc)
deriving DecidableEq, Repr

/-- `sol_value_calculator_program_id`, lido.rs:60-62, marinade.rs:40-42, wsol.rs:28-30, spl.rs:98-100, sanctum_spl.rs, sanctum_spl_multi.rs. -/
def KnownCalc.programId (J : JupCfg) : KnownCalc → Pubkey
  | .lido _ => J.lido.programId
  | .marinade _ => J.marinade.programId
  | .wsol => J.wsolProgram
  | .spl k _ _ _ => (J.spl k).programId

/-- `lst_mint`, lido.rs:64-66, marinade.rs:44-46, wsol.rs:32-34, spl.rs:103-105. -/
def KnownCalc.lstMint (J : JupCfg) : KnownCalc → Pubkey
  | .lido _ => J.lidoMint
  | .marinade _ => J.msolMint
  | .wsol => J.wsolMint
  | .spl _ m _ _ => m

/-- The calculator a quote may use: fetched, and passing `verify_pool_updated_for_this_epoch` or `verify_can_withdraw_stake`
(the first two lines of every `lst_to_sol` and `sol_to_lst`: lido.rs:69-70, marinade.rs:49-50, spl.rs:108-109). -/
def KnownCalc.usable (epoch : Nat) : KnownCalc → R AnyCalc
  | .lido c => do
    let c ← okOr c .notReady
    c.verifyUpdated epoch
    pure (.lido c)
  | .marinade c => do
    let c ← okOr c .notReady
    c.verifyCanWithdrawStake
    pure (.marinade c)
  | .wsol => pure .wsol
  | .spl _ _ _ c => do
    let c ← okOr c .notReady
    c.verifyUpdated epoch
    pure (.spl c)

/-- `lst_to_sol`, lido.rs:68-72, marinade.rs:48-52, wsol.rs:36-38, spl.rs:107-111. -/
def KnownCalc.lstToSol (L : RatioLib) (epoch : Nat) (k : KnownCalc) (x : Nat) : R Range := do
  let c ← k.usable epoch
  (c.calculator L).lstToSol x

/-- `sol_to_lst`, lido.rs:74-78, marinade.rs:54-58, wsol.rs:40-42, spl.rs:113-117. -/
def KnownCalc.solToLst (L : RatioLib) (epoch : Nat) (k : KnownCalc) (x : Nat) : R Range := do
  let c ← k.usable epoch
  (c.calculator L).solToLst x

/-- `resolve_to_account_metas_for_calc`, spl-calculator-lib/src/account_resolvers.rs:176-181: all read-only. -/
def poolMetas (pc : PoolCfg) (lstMint poolState : Pubkey) : List Acc :=
  [roMeta lstMint, roMeta pc.stateId, roMeta poolState, roMeta pc.poolProgram, roMeta pc.poolProgData]

/-- `ix_accounts`, lido.rs:80-84, marinade.rs:60-64, wsol.rs:44-46, spl.rs:119-126. -/
def KnownCalc.ixAccounts (J : JupCfg) : KnownCalc → List Acc
  | .lido _ => poolMetas J.lido J.lidoMint J.lidoState
  | .marinade _ => poolMetas J.marinade J.msolMint J.marinadeState
  | .wsol => [roMeta J.wsolMint]
  | .spl k m p _ => poolMetas (J.spl k) m p

/-- `Lido::deserialize` and `LidoCalc::from`, lido.rs:53 — unlike the on-chain program, without checking the account type. -/
def readLidoUnchecked (b : List UInt8) : R LidoCalc := do
  let (vs, _) ← decodeFields lidoLayout.flds b
  pure ⟨lidoLayout.get vs .computedInEpoch, lidoLayout.get vs .stSolSupply, lidoLayout.get vs .solBalance⟩

/-- `MarinadeState::deserialize` and `MarinadeStateCalc::from`, marinade.rs:31-33 — without the on-chain discriminant check. -/
def readMarinadeUnchecked (b : List UInt8) : R MarinadeCalc := do
  let (vs, _) ← decodeFields marinadeLayout.flds b
  pure
    { paused := marinadeLayout.get vs .paused = 1
      delayedUnstakeCoolingDown := marinadeLayout.get vs .delayedUnstakeCoolingDown
      emergencyCoolingDown := marinadeLayout.get vs .emergencyCoolingDown
      totalActiveBalance := marinadeLayout.get vs .totalActiveBalance
      availableReserveBalance := marinadeLayout.get vs .availableReserveBalance
      circulatingTicketBalance := marinadeLayout.get vs .circulatingTicketBalance
      msolSupply := marinadeLayout.get vs .msolSupply
      withdrawStakeAccountEnabled := marinadeLayout.get vs .withdrawStakeAccountEnabled = 1
      withdrawStakeAccountFeeCents := marinadeLayout.get vs .withdrawStakeAccountFee }

/-- The account a calculator reads: `get_accounts_to_update`, lido.rs:44-46, marinade.rs:22-24, wsol.rs:15-17, spl.rs:77-79. -/
def KnownCalc.toFetch (J : JupCfg) : KnownCalc → List Pubkey
  | .lido _ => [J.lidoState]
  | .marinade _ => [J.marinadeState]
  | .wsol => []
  | .spl _ _ p _ => [p]

/-- Parsing the fetched account and storing it: lido.rs:53, marinade.rs:31-33, spl.rs:86-90. -/
def KnownCalc.load (b : Blob) : KnownCalc → R KnownCalc
  | .lido _ => do
    let c ← readLidoUnchecked b.bytes
    pure (.lido (some c))
  | .marinade _ => do
    let c ← readMarinadeUnchecked b.bytes
    pure (.marinade (some c))
  | .wsol => pure .wsol
  | .spl k m p _ => do
    let (mint, c) ← readSplPool b.bytes
    require (mint = m) .wrongLstMint
    pure (.spl k m p (some c))

/-- `update`, lido.rs:48-56, marinade.rs:26-36, wsol.rs:19-24, spl.rs:81-94: nothing happens if the account is absent from the map or
does not parse. -/
def KnownCalc.update (J : JupCfg) (m : AccMap) (k : KnownCalc) : KnownCalc × R Unit :=
  match k.toFetch J with
  | [] => (k, .ok ())
  | a :: _ => match m a with
    | none => (k, .ok ())
    | some b => match k.load b with
      | .error e => (k, .error e)
      | .ok k' => (k', .ok ())

/-! ### Pricing program -/

/-- `FlatFeePricingProg`, s-pricing-prog-aggregate/src/flat_fee.rs:24-29, the only `KnownPricingProg` (lib.rs:17-20). Its `program_id` is always
the flat-fee program (`KnownPricingProg::try_new`, lib.rs:22-33), so it is left out. The `HashMap` is a list of pairs, looked up from the front. -/
structure FlatProg where
  state : Option FlatState
  fees : List (Pubkey × Option FeeAccount)
deriving DecidableEq, Repr

/-- `get_fee_account_checked`, flat_fee.rs:41-46. -/
def FlatProg.fee (p : FlatProg) (mint : Pubkey) : R FeeAccount :=
  match p.fees.find? (fun e => e.1 = mint) with
  | some (_, some a) => .ok a
  | _ => .error .unsupportedLstMint

/-- The address to read a fee account from, flat_fee.rs:148-158. -/
def feeAccountAddr (fc : FlatCfg) (mint : Pubkey) : Option FeeAccount → R Pubkey
  | some a => okOr (fc.feeAddr mint a.bump) .invalidArgument
  | none => .ok (fc.findFee mint).1

/-- The loop of `update`, flat_fee.rs:147-163. A `HashMap` iterates in an unspecified order; the list order stands for it (it matters only for
which fee accounts are read before an error). -/
def updateFees (fc : FlatCfg) (m : AccMap) : List (Pubkey × Option FeeAccount) → List (Pubkey × Option FeeAccount) × R Unit
  | [] => ([], .ok ())
  | (mint, fa) :: rest => match feeAccountAddr fc mint fa with
    | .error e => ((mint, fa) :: rest, .error e)
    | .ok k => match m k with
      | none => let r := updateFees fc m rest; ((mint, fa) :: r.1, r.2)
      | some b => match b.feeAccount with
        | .error e => ((mint, fa) :: rest, .error e)
        | .ok a => let r := updateFees fc m rest; ((mint, some a) :: r.1, r.2)

/-- `FlatFeePricingProg::update`, flat_fee.rs:138-166. -/
def FlatProg.update (fc : FlatCfg) (m : AccMap) (p : FlatProg) : FlatProg × R Unit :=
  match m fc.stateId with
  | none => let r := updateFees fc m p.fees; (⟨p.state, r.1⟩, r.2)
  | some b => match b.flatState with
    | .error e => (p, .error e)
    | .ok s => let r := updateFees fc m p.fees; (⟨some s, r.1⟩, r.2)

/-- `quote_exact_in`, flat_fee.rs:221-236. -/
def FlatProg.quoteExactIn (L : RatioLib) (p : FlatProg) (inMint outMint : Pubkey) (solValue : Nat) : R Nat := do
  let i ← p.fee inMint
  let o ← p.fee outMint
  flatPriceExactIn L i.inputFeeBps o.outputFeeBps solValue

/-- `quote_exact_out`, flat_fee.rs:261-276. -/
def FlatProg.quoteExactOut (L : RatioLib) (p : FlatProg) (inMint outMint : Pubkey) (solValue : Nat) : R Nat := do
  let i ← p.fee inMint
  let o ← p.fee outMint
  flatPriceExactOut L i.inputFeeBps o.outputFeeBps solValue

/-- `quote_lp_tokens_to_redeem`, flat_fee.rs:174-187. -/
def FlatProg.quoteRedeem (p : FlatProg) (solValue : Nat) : R Nat := do
  let s ← okOr p.state .invalidProgramStateData
  flatPriceRedeem s.lpWithdrawalFeeBps solValue

/-- `price_exact_in_accounts` and `price_exact_out_accounts`, flat_fee.rs:238-259, 278-299, with
flat-fee-lib/src/account_resolvers/price_exact_in.rs:20-90. -/
def FlatProg.swapAccounts (fc : FlatCfg) (p : FlatProg) (inMint outMint : Pubkey) : R (List Acc) :=
  match p.fee inMint, p.fee outMint with
  | .ok i, .ok o => do
    let ia ← okOr (fc.feeAddr inMint i.bump) .invalidArgument
    let oa ← okOr (fc.feeAddr outMint o.bump) .invalidArgument
    pure [roMeta inMint, roMeta outMint, roMeta ia, roMeta oa]
  | _, _ => pure [roMeta inMint, roMeta outMint, roMeta (fc.findFee inMint).1, roMeta (fc.findFee outMint).1]

/-- `price_lp_tokens_to_redeem_accounts`, flat_fee.rs:189-199. -/
def flatRedeemAccounts (fc : FlatCfg) (mint : Pubkey) : List Acc := [roMeta mint, roMeta fc.stateId]

/-- `price_lp_tokens_to_mint_accounts`, flat_fee.rs:209-219. -/
def flatMintAccounts (mint : Pubkey) : List Acc := [roMeta mint]

/-! ### The pool -/

/-- `LstData`, lib.rs:22-27. -/
structure LstData where
  solCalc : KnownCalc
  reserves : Option Nat
  tokenProgram : Pubkey
deriving DecidableEq, Repr

/-- `SPool`, lib.rs:32-47. `program_id` and the two addresses are those of the configuration. -/
structure SPool where
  lstList : Blob
  poolState : Option Blob
  lpSupply : Option Nat
  pricing : Option FlatProg
  data : List (Option LstData)
  epoch : Nat
deriving DecidableEq, Repr

/-- `pool_state_data` and `try_pool_state`, lib.rs:96-107. -/
def SPool.pool (S : SPool) : R PoolState := do
  let b ← okOr S.poolState .notReady
  b.pool

/-- `find_ready_lst`, lib.rs:111-125. -/
def SPool.findReady (S : SPool) (mint : Pubkey) : R (LstState × LstData) := do
  let lsts ← S.lstList.lsts
  let (s, d) ← okOr ((lsts.zip S.data).find? fun e => e.1.mint = mint) .notReady
  let d ← okOr d .notReady
  pure (s, d)

/-- `PoolInfo` of the crate `sanctum_lst_list`: which stake pool program issues an LST. -/
inductive PoolInfo
  | lido | marinade | reservePool | sPool
  | spl (kind : SplKind) (pool : Pubkey)
deriving DecidableEq, Repr

/-- `SanctumLst` of the crate `sanctum_lst_list` (the fields used). -/
structure SanctumLst where
  mint : Pubkey
  tokenProgram : Pubkey
  pool : PoolInfo
deriving DecidableEq, Repr

/-- The calculator for an entry of the Sanctum LST list, utils.rs:37-71. -/
def PoolInfo.calculator (mint : Pubkey) : PoolInfo → Option KnownCalc
  | .lido => some (.lido none)
  | .marinade => some (.marinade none)
  | .reservePool => some .wsol
  | .spl k p => some (.spl k mint p none)
  | .sPool => none

/-- `try_lst_data`, utils.rs:23-80. -/
def tryLstData (J : JupCfg) (list : List SanctumLst) (s : LstState) : Option LstData := do
  let e ← list.find? fun e => e.mint = s.mint
  let c ← e.pool.calculator s.mint
  if s.solValueCalculator ≠ c.programId J then none else some ⟨c, none, e.tokenProgram⟩

/-- `try_pricing_prog`, utils.rs:13-21, and `KnownPricingProg::try_new`, s-pricing-prog-aggregate/src/lib.rs:22-33. -/
def tryPricing (J : JupCfg) (p : PoolState) (lsts : List LstState) : R FlatProg := do
  require (p.pricingProgram = J.fc.programId) .unknownPricingProgram
  pure ⟨none, lsts.map fun s => (s.mint, none)⟩

/-- `from_lst_state_list_account`, init.rs:59-92. -/
def SPool.fromList (J : JupCfg) (list : List SanctumLst) (epoch : Nat) (b : Blob) : R SPool := do
  let lsts ← b.lsts
  pure ⟨b, none, none, none, lsts.map (tryLstData J list), epoch⟩

/-- `from_init_accounts`, init.rs:96-124. -/
def SPool.fromInit (J : JupCfg) (list : List SanctumLst) (epoch : Nat) (lstList poolState : Blob) : R SPool := do
  let lsts ← lstList.lsts
  let p ← poolState.pool
  let pp ← tryPricing J p lsts
  let S ← SPool.fromList J list epoch lstList
  pure { S with poolState := some poolState, pricing := some pp }

/-- `from_keyed_account`, jup_interface.rs:26-59, for the default program id: the key must be that of the LST state list. -/
def SPool.fromKeyed (J : JupCfg) (list : List SanctumLst) (epoch : Nat) (key : Pubkey) (b : Blob) : R SPool := do
  require (key = J.cfg.lstStateList) .incorrectLstStateList
  SPool.fromList J list epoch b

/-! ### Updates -/

/-- `Result::and`, both sides already evaluated. -/
def andR (a b : R Unit) : R Unit :=
  match a with
  | .error e => .error e
  | .ok _ => b

/-- The reserves half of `update_lst_data_list`, update.rs:160-168. -/
def LstData.fetchReserves (J : JupCfg) (m : AccMap) (s : LstState) (d : LstData) : Option Nat × R Unit :=
  match poolReserves J.cfg s d.tokenProgram with
  | .error e => (d.reserves, .error e)
  | .ok ata => match m ata with
    | none => (d.reserves, .ok ())
    | some b => match J.balance b with
      | .error e => (d.reserves, .error e)
      | .ok x => (some x, .ok ())

/-- One iteration of `update_lst_data_list`, update.rs:148-169. Indexing past the end of the list is a panic. -/
def SPool.updateSlot (J : JupCfg) (m : AccMap) (S : SPool) (i : Nat) : Option LstData → Option LstData × R Unit
  | none => (none, .ok ())
  | some d => match S.lstList.lsts with
    | .error e => (some d, .error e)
    | .ok lsts => match lsts[i]? with
      | none => (some d, .error .panic)
      | some s =>
        let c := d.solCalc.update J m
        let r := d.fetchReserves J m s
        (some ⟨c.1, r.1, d.tokenProgram⟩, andR c.2 r.2)

/-- `update_lst_data_list`, update.rs:139-171. -/
def SPool.updateData (J : JupCfg) (m : AccMap) (S : SPool) : SPool × R Unit :=
  let rs := S.data.mapIdx fun i d => S.updateSlot J m i d
  ({ S with data := rs.map Prod.fst }, (rs.map Prod.snd).foldl andR (.ok ()))

/-- `update_pricing_prog`, update.rs:74-82. -/
def SPool.updatePricing (J : JupCfg) (m : AccMap) (S : SPool) : SPool × R Unit :=
  match S.pricing with
  | none => (S, .ok ())
  | some p => let r := p.update J.fc m; ({ S with pricing := some r.1 }, r.2)

/-- The new slot for one position when the list changed, update.rs:212-244. -/
def replaceSlot (J : JupCfg) (old : List (Option LstData)) (oldState : LstState) (oldData : Option LstData) (new : LstState) :
    Option LstData :=
  if oldState.mint ≠ new.mint then
    (old.find? fun
      | some d => d.solCalc.lstMint J = new.mint ∧ d.solCalc.programId J = new.solValueCalculator
      | none => false).join
  else oldData.bind fun d => if d.solCalc.programId J = new.solValueCalculator then some d else none

/-- `new_lst_data_list`, update.rs:204-247: as long as the new list, `None` past the end of the old lists. -/
def newData (J : JupCfg) (old : List (Option LstData)) : List (LstState × Option LstData) → List LstState → List (Option LstData)
  | _, [] => []
  | [], _ :: new => none :: newData J old [] new
  | (s, d) :: rest, n :: new => replaceSlot J old s d n :: newData J old rest new

/-- The two lists name the same LSTs with the same calculators, update.rs:191-198. -/
def sameLsts (a b : List LstState) : Bool :=
  a.length == b.length && (a.zip b).all fun e => e.1.mint = e.2.mint ∧ e.1.solValueCalculator = e.2.solValueCalculator

/-- `update_lst_state_list`, update.rs:174-253. -/
def SPool.updateList (J : JupCfg) (m : AccMap) (S : SPool) : SPool × R Unit :=
  match m J.cfg.lstStateList with
  | none => (S, .ok ())
  | some b => match S.lstList.lsts with
    | .error e => (S, .error e)
    | .ok old => match b.lsts with
      | .error e => (S, .error e)
      | .ok new =>
        if sameLsts old new then ({ S with lstList := b }, .ok ())
        else ({ S with lstList := b, data := newData J S.data (old.zip S.data) new }, .ok ())

/-- `update_lp_token_supply`, update.rs:257-275. -/
def SPool.updateSupply (J : JupCfg) (m : AccMap) (S : SPool) : SPool × R Unit :=
  match S.poolState with
  | none => (S, .ok ())
  | some b => match b.pool with
    | .error e => (S, .error e)
    | .ok p => match m p.lpTokenMint with
      | none => (S, .ok ())
      | some a => match J.supply a with
        | .error e => (S, .error e)
        | .ok x => ({ S with lpSupply := some x }, .ok ())

/-- The pricing program is set up anew, update.rs:294-298: there was none, or the cached pool state named another one. -/
def SPool.reinit (S : SPool) (new : PoolState) : Bool :=
  S.pricing.isNone || match S.pool with
    | .error _ => false
    | .ok old => old.pricingProgram ≠ new.pricingProgram

/-- `update_pool_state`, update.rs:279-315. An unknown pricing program is dropped silently (`.ok()`). -/
def SPool.updatePool (J : JupCfg) (m : AccMap) (S : SPool) : SPool × R Unit :=
  match m J.cfg.poolState with
  | none => (S, .ok ())
  | some b => match S.lstList.lsts with
    | .error e => (S, .error e)
    | .ok lsts => match b.pool with
      | .error e => (S, .error e)
      | .ok new =>
        if S.reinit new then match tryPricing J new lsts with
          | .error _ => ({ S with pricing := none, poolState := some b }, .ok ())
          | .ok pp => let r := pp.update J.fc m; ({ S with pricing := some r.1, poolState := some b }, r.2)
        else ({ S with poolState := some b }, .ok ())

/-- `update_full`, update.rs:29-46: every step runs, the first error is returned. -/
def SPool.updateFull (J : JupCfg) (m : AccMap) (S : SPool) : SPool × R Unit :=
  let r1 := S.updateData J m
  let r2 := r1.1.updatePricing J m
  let r3 := r2.1.updateList J m
  let r4 := r3.1.updatePool J m
  let r5 := r4.1.updateSupply J m
  (r5.1, andR (andR (andR (andR r1.2 r2.2) r3.2) r4.2) r5.2)

/-- `fee_account_for_mint`, flat_fee.rs:75-95. -/
def feeAccountToFetch (fc : FlatCfg) (mint : Pubkey) : Option FeeAccount → Pubkey
  | some a => (fc.feeAddr mint a.bump).getD (fc.findFee mint).1
  | none => (fc.findFee mint).1

/-- `get_accounts_to_update` of the pricing program: traits.rs:49-56, flat_fee.rs:112-121. -/
def FlatProg.toFetch (fc : FlatCfg) (p : FlatProg) : List Pubkey :=
  fc.stateId :: p.fees.map fun e => feeAccountToFetch fc e.1 e.2

/-- `lst_accounts_to_update`, update.rs:86-100. -/
def lstToFetch (J : JupCfg) (s : LstState) : Option LstData → List Pubkey
  | none => []
  | some d => d.solCalc.toFetch J ++ match poolReserves J.cfg s d.tokenProgram with
    | .ok ata => [ata]
    | .error _ => []

/-- `get_accounts_to_update_full`, update.rs:14-26 (with 49-57 and 102-113). -/
def SPool.toFetch (J : JupCfg) (S : SPool) : List Pubkey :=
  [J.cfg.lstStateList, J.cfg.poolState]
    ++ (match S.pricing with | none => [] | some p => p.toFetch J.fc)
    ++ (match S.lstList.lsts with | .error _ => [] | .ok lsts => (lsts.zip S.data).flatMap fun e => lstToFetch J e.1 e.2)
    ++ (match S.pool with | .error _ => [] | .ok p => [p.lpTokenMint])

/-- `get_reserve_mints_full`, core/mod.rs:87-97. -/
def SPool.reserveMints (S : SPool) : List Pubkey :=
  (match S.lstList.lsts with | .error _ => [] | .ok lsts => lsts.map (·.mint))
    ++ (match S.pool with | .error _ => [] | .ok p => [p.lpTokenMint])

/-! ### Quotes -/

/-- `QuoteParams` and `SwapMode` of the crate `jupiter_amm_interface`. -/
structure QuoteParams where
  amount : Nat
  inputMint : Pubkey
  outputMint : Pubkey
  exactOut : Bool
deriving DecidableEq, Repr

/-- `Quote` of the crate `jupiter_amm_interface`; `feePct` is the fraction before `Decimal` rounds it. -/
structure Quote where
  inAmount : Nat
  outAmount : Nat
  feeMint : Pubkey
  feeAmount : Nat
  feePct : Nat × Nat
deriving DecidableEq, Repr

/-- `apply_sync_sol_value`, core/common.rs:12-27: the new total and the reserves. -/
def SPool.applySync (L : RatioLib) (S : SPool) (total : Nat) (s : LstState) (d : LstData) : R (Nat × Nat) := do
  let reserves ← okOr d.reserves .notReady
  let v ← d.solCalc.lstToSol L S.epoch reserves
  let t ← syncedTotal total s.solValue v.min
  pure (t, reserves)

/-- `calc_quote_fees`, core/common.rs:32-46, with `AmtsAfterFeeBuilder::with_amt_aft_fee` of its callers. -/
def SPool.quoteFees (L : RatioLib) (S : SPool) (before after : Nat) (c : KnownCalc) : R (Nat × (Nat × Nat)) := do
  let fee ← subU64 before after
  require (before ≠ 0) .math
  let x ← c.solToLst L S.epoch fee
  pure (x.min, (fee, before))

/-- `quote_swap_exact_in`, core/swap_exact_in.rs:28-103. -/
def SPool.quoteExactIn (L : RatioLib) (S : SPool) (q : QuoteParams) : R Quote := do
  let pool ← S.pool
  let pp ← okOr S.pricing .notReady
  let (si, di) ← S.findReady q.inputMint
  require (si.isInputDisabled = 0) .lstInputDisabled
  let (t1, _) ← S.applySync L pool.totalSolValue si di
  let (so, d_o) ← S.findReady q.outputMint
  let (_, res) ← S.applySync L t1 so d_o
  let inSol ← di.solCalc.lstToSol L S.epoch q.amount
  require (inSol.min ≠ 0) .zeroValue
  let outSol ← pp.quoteExactIn L q.inputMint q.outputMint inSol.min
  require (outSol ≤ inSol.min) .poolWouldLoseSolValue
  let dst ← d_o.solCalc.solToLst L S.epoch outSol
  require (dst.min ≠ 0) .zeroValue
  let fee ← calcSwapProtocolFees L inSol.min outSol dst.min pool.tradingProtocolFeeBps
  let total ← addU64 dst.min fee
  require (total ≤ res) .notEnoughLiquidity
  let (fa, fp) ← S.quoteFees L inSol.min outSol d_o.solCalc
  pure ⟨q.amount, dst.min, q.outputMint, fa, fp⟩

/-- `quote_swap_exact_out`, core/swap_exact_out.rs:24-99. -/
def SPool.quoteExactOut (L : RatioLib) (S : SPool) (q : QuoteParams) : R Quote := do
  let pool ← S.pool
  let pp ← okOr S.pricing .notReady
  let (si, di) ← S.findReady q.inputMint
  require (si.isInputDisabled = 0) .lstInputDisabled
  let (t1, _) ← S.applySync L pool.totalSolValue si di
  let (so, d_o) ← S.findReady q.outputMint
  let (_, res) ← S.applySync L t1 so d_o
  let outSol ← d_o.solCalc.lstToSol L S.epoch q.amount
  require (outSol.max ≠ 0) .zeroValue
  let inSol ← pp.quoteExactOut L q.inputMint q.outputMint outSol.max
  require (outSol.max ≤ inSol) .poolWouldLoseSolValue
  let src ← di.solCalc.solToLst L S.epoch inSol
  require (src.max ≠ 0) .zeroValue
  let fee ← calcSwapProtocolFees L inSol outSol.max q.amount pool.tradingProtocolFeeBps
  let total ← addU64 q.amount fee
  require (total ≤ res) .notEnoughLiquidity
  let (fa, fp) ← S.quoteFees L inSol outSol.max d_o.solCalc
  pure ⟨src.max, q.amount, q.outputMint, fa, fp⟩

/-- `quote_add_liquidity`, core/add_liquidity.rs:27-83; the flat-fee program prices LP tokens to mint at their value (flat_fee.rs:201-207). -/
def SPool.quoteAdd (L : RatioLib) (S : SPool) (q : QuoteParams) : R Quote := do
  let pool ← S.pool
  let _ ← okOr S.pricing .notReady
  let supply ← okOr S.lpSupply .notReady
  let (si, di) ← S.findReady q.inputMint
  require (si.isInputDisabled = 0) .lstInputDisabled
  let (t1, _) ← S.applySync L pool.totalSolValue si di
  let v ← di.solCalc.lstToSol L S.epoch q.amount
  let after := v.min
  require (after ≤ v.min) .poolWouldLoseSolValue
  let lp ← calcLpTokensToMint L ⟨supply, t1⟩ after
  let (fa, fp) ← S.quoteFees L v.min after di.solCalc
  pure ⟨q.amount, lp, q.inputMint, fa, fp⟩

/-- `quote_remove_liquidity`, core/remove_liquidity.rs:28-100. -/
def SPool.quoteRemove (L : RatioLib) (S : SPool) (q : QuoteParams) : R Quote := do
  let pool ← S.pool
  let pp ← okOr S.pricing .notReady
  let supply ← okOr S.lpSupply .notReady
  let (so, d_o) ← S.findReady q.outputMint
  let (t1, res) ← S.applySync L pool.totalSolValue so d_o
  let v ← calcLpTokensSolValue L ⟨supply, t1⟩ q.amount
  let after ← pp.quoteRedeem v
  require (after ≤ v) .poolWouldLoseSolValue
  let out ← d_o.solCalc.solToLst L S.epoch after
  let fee ← calcRemoveLiquidityProtocolFees L v after out.min pool.lpProtocolFeeBps
  let total ← addU64 out.min fee
  require (total ≤ res) .notEnoughLiquidity
  let (fa, fp) ← S.quoteFees L v after d_o.solCalc
  pure ⟨q.amount, out.min, q.outputMint, fa, fp⟩

/-- `quote_full`, core/mod.rs:46-64, the library's `quote`. -/
def SPool.quote (L : RatioLib) (S : SPool) (q : QuoteParams) : R Quote := do
  let pool ← S.pool
  if q.inputMint = pool.lpTokenMint then
    if q.exactOut then .error .unsupportedMode else S.quoteRemove L q
  else if q.outputMint = pool.lpTokenMint then
    if q.exactOut then .error .unsupportedMode else S.quoteAdd L q
  else if q.exactOut then S.quoteExactOut L q
  else S.quoteExactIn L q

/-! ### Instructions -/

/-- `SwapParams` of the crate `jupiter_amm_interface` (the fields used). -/
structure SwapParams where
  inAmount : Nat
  outAmount : Nat
  sourceMint : Pubkey
  destinationMint : Pubkey
  sourceTokenAccount : Pubkey
  destinationTokenAccount : Pubkey
  tokenTransferAuthority : Pubkey
deriving DecidableEq, Repr

/-- `swap_by_mints_free_args` and the account lists of `swap_exact_in_ix` / `swap_exact_out_ix`, core/swap_exact_in.rs:105-184,
core/swap_exact_out.rs:101-154. -/
def SPool.swapRequest (J : JupCfg) (S : SPool) (p : SwapParams) (pricingProgram : Pubkey) : R SwapRequest := do
  let (_, ds) ← S.findReady p.sourceMint
  let (_, dd) ← S.findReady p.destinationMint
  let pp ← okOr S.pricing .notReady
  let pm ← pp.swapAccounts J.fc p.sourceMint p.destinationMint
  pure
    { signer := p.tokenTransferAuthority
      srcAcc := p.sourceTokenAccount
      dstAcc := p.destinationTokenAccount
      src := ⟨p.sourceMint, ds.tokenProgram⟩
      dst := ⟨p.destinationMint, dd.tokenProgram⟩
      srcMetas := ds.solCalc.ixAccounts J
      dstMetas := dd.solCalc.ixAccounts J
      pricing := ⟨pricingProgram, pm⟩ }

/-- `swap_exact_in_ix` (exactOut = false, core/swap_exact_in.rs:134-184) and `swap_exact_out_ix` (true, core/swap_exact_out.rs:101-154): the
program of the cached pool state, the cached list. -/
def SPool.swapIx' (J : JupCfg) (S : SPool) (p : SwapParams) (exactOut : Bool) : R TopIx := do
  let pool ← S.pool
  let r ← S.swapRequest J p pool.pricingProgram
  let lsts ← S.lstList.lsts
  if exactOut then swapExactOutByMint J.cfg lsts r p.inAmount p.outAmount
  else swapExactInByMint J.cfg lsts r p.outAmount p.inAmount

/-- `add_liquidity_free_args`, `remove_liquidity_free_args` and the account lists, core/add_liquidity.rs:85-141,
core/remove_liquidity.rs:102-161. `remove` chooses which of the two. -/
def SPool.liqRequest (J : JupCfg) (S : SPool) (p : SwapParams) (remove : Bool) (priceMetas : List Acc) : R LiqRequest := do
  let mint := if remove then p.destinationMint else p.sourceMint
  let (_, d) ← S.findReady mint
  let _ ← okOr S.pricing .notReady
  pure
    { signer := p.tokenTransferAuthority
      userLst := if remove then p.destinationTokenAccount else p.sourceTokenAccount
      userLp := if remove then p.sourceTokenAccount else p.destinationTokenAccount
      mint := ⟨mint, d.tokenProgram⟩
      calcMetas := d.solCalc.ixAccounts J
      priceMetas := priceMetas }

/-- `add_liquidity_ix`, core/add_liquidity.rs:112-141. -/
def SPool.addIx (J : JupCfg) (S : SPool) (p : SwapParams) : R TopIx := do
  let r ← S.liqRequest J p false (flatMintAccounts p.sourceMint)
  let pool ← S.pool
  let lsts ← S.lstList.lsts
  addLiquidityByMint J.cfg pool lsts r p.inAmount p.outAmount

/-- `remove_liquidity_ix`, core/remove_liquidity.rs:129-161. -/
def SPool.removeIx (J : JupCfg) (S : SPool) (p : SwapParams) : R TopIx := do
  let r ← S.liqRequest J p true (flatRedeemAccounts J.fc p.destinationMint)
  let pool ← S.pool
  let lsts ← S.lstList.lsts
  removeLiquidityByMint J.cfg pool lsts r p.inAmount p.outAmount

/-- `swap_ix`, core/mod.rs:22-45. -/
def SPool.swapIx (J : JupCfg) (S : SPool) (p : SwapParams) (exactOut : Bool) : R TopIx := do
  let pool ← S.pool
  if p.sourceMint = pool.lpTokenMint then
    if exactOut then .error .unsupportedMode else S.removeIx J p
  else if p.destinationMint = pool.lpTokenMint then
    if exactOut then .error .unsupportedMode else S.addIx J p
  else S.swapIx' J p exactOut

/-- `jupiter_amm_interface::Swap`: the variants the library returns. -/
inductive JupSwap
  | sanctumS (srcCalcAccs dstCalcAccs srcIdx dstIdx : Nat)
  | addLiquidity (calcAccs idx : Nat)
  | removeLiquidity (calcAccs idx : Nat)
deriving DecidableEq, Repr

/-- `swap_exact_in_swap_and_account_metas` and `swap_exact_out_swap_and_account_metas`, core/swap_exact_in.rs:186-282,
core/swap_exact_out.rs:156-253 (the accounts are the same): here the cached pricing program's own id is used. -/
def SPool.swapMetas (J : JupCfg) (S : SPool) (p : SwapParams) : R (JupSwap × List Acc) := do
  let r ← S.swapRequest J p J.fc.programId
  let lsts ← S.lstList.lsts
  let (k, f) ← resolveSwap J.cfg lsts r.signer r.srcAcc r.dstAcc r.src r.dst
  let (a1, ns, nd) ← extendSrcDst (roMeta J.cfg.programId :: k.metas) ⟨f.srcCalc, r.srcMetas⟩ ⟨f.dstCalc, r.dstMetas⟩
  let (a2, _) ← extendSwap a1 r.pricing.metas r.pricing.program
  let i ← indexToU32 f.srcIdx
  let j ← indexToU32 f.dstIdx
  pure (.sanctumS ns nd i j, a2)

/-- `add_liquidity_swap_and_account_metas`, core/add_liquidity.rs:143-206, and `remove_liquidity_swap_and_account_metas`,
core/remove_liquidity.rs:163-227; the latter asks the pricing program for the accounts of the LP mint rather than the LST. -/
def SPool.liqMetas (J : JupCfg) (S : SPool) (p : SwapParams) (remove : Bool) : R (JupSwap × List Acc) := do
  let r ← S.liqRequest J p remove (if remove then flatRedeemAccounts J.fc p.sourceMint else flatMintAccounts p.sourceMint)
  let pool ← S.pool
  let lsts ← S.lstList.lsts
  let (k, i, c, pr) ← resolveLiq J.cfg pool lsts r.signer r.userLst r.userLp r.mint
  let (a1, n) ← extendOne (roMeta J.cfg.programId :: k.metas) r.calcMetas c
  let (a2, _) ← extendOne a1 r.priceMetas pr
  let i ← indexToU32 i
  pure (if remove then .removeLiquidity n i else .addLiquidity n i, a2)

/-- `get_swap_and_account_metas_full`, core/mod.rs:66-83 (an in amount of zero selects exact out, with the same accounts). -/
def SPool.metas (J : JupCfg) (S : SPool) (p : SwapParams) : R (JupSwap × List Acc) := do
  let pool ← S.pool
  if p.sourceMint = pool.lpTokenMint then S.liqMetas J p true
  else if p.destinationMint = pool.lpTokenMint then S.liqMetas J p false
  else S.swapMetas J p

end S
