import Verif.Jup
import Verif.Tx
/-
Model of the computations of the command-line tool, cli/s-controller/src: what its rebalancing commands and `sync-all` ask the chain to do.
Fetching accounts, prompting, compute-budget instructions and the stake pools' own quotes and instructions (crate `stakedex`) are not
modelled: the cache is given, the quotes are parameters. Commands are modelled for the default program id, with LSTs given by mint.
-/
set_option autoImplicit false
namespace S

/-- `sol_value_calculator_accounts_of_sanctum_lst`, cli/s-controller/src/common.rs:74-112. For an S pool it is `todo!()`. -/
def calcMetas (J : JupCfg) (e : SanctumLst) : R (List Acc) := do
  let c ← okOr (e.pool.calculator e.mint) .panic
  pure (c.ixAccounts J)

/-- What a rebalancing command decides: the amount of the destination LST its payer adds, and the two instructions of the controller between
which it puts the stake pool's instructions and the payer's transfer. -/
structure RebalPlan where
  subsidy : Nat
  start : TopIx
  finish : TopIx
deriving DecidableEq, Repr

/-- `start_rebalance_ix_by_mints_full_for_prog` and `end_rebalance_ix_from_start_rebalance_ix` with the accounts held in the cache,
rebal_sol.rs:223-257, rebal_stake.rs:274-308, rebal_withdraw_sol.rs:247-281. -/
def rebalIxs (J : JupCfg) (S : SPool) (withdrawTo : Pubkey) (src dst : MintAcc) (amount : Nat) (srcMetas dstMetas : List Acc) :
    R (TopIx × TopIx) := do
  let p ← S.pool
  let lsts ← S.lstList.lsts
  let start ← startRebalanceByMints J.cfg p lsts withdrawTo src dst ⟨amount, 0, U64 - 1⟩ srcMetas dstMetas
  let finish ← endFromStartIx start
  pure (start, finish)

/-- The check of the signer, rebal_sol.rs:136-144, rebal_stake.rs:148-156, rebal_withdraw_sol.rs:144-152. -/
def checkRebalAuth (S : SPool) (auth : Pubkey) : R Unit := do
  let p ← S.pool
  require (auth = p.rebalanceAuthority) .panic

/-- The check of the payer's balance of the destination LST (or of SOL), rebal_sol.rs:200-213, rebal_stake.rs:251-264,
rebal_withdraw_sol.rs:223-237. -/
def checkSubsidy (subsidy : Nat) : Option Nat → R Unit
  | none => require (subsidy = 0) .panic
  | some b => require (subsidy ≤ b) .panic

/-- `RebalSolArgs::run`, subcmd/rebal_sol.rs:68-309: rebalances `lamports` of wrapped SOL into the LST `e`. `minted` is
`quote_deposit_sol(lamports)`. -/
def rebalSol (J : JupCfg) (L : RatioLib) (S : SPool) (auth : Pubkey) (e : SanctumLst) (lamports minted : Nat) (payer : Option Nat)
    (withdrawTo : Pubkey) : R RebalPlan := do
  checkRebalAuth S auth
  let (_, d) ← S.findReady e.mint
  let required ← d.solCalc.solToLst L S.epoch lamports
  let subsidy := required.max - minted
  checkSubsidy subsidy payer
  let dstMetas ← calcMetas J e
  let (start, finish) ← rebalIxs J S withdrawTo ⟨J.wsolMint, J.cfg.splToken⟩ ⟨e.mint, e.tokenProgram⟩ lamports
    (KnownCalc.wsol.ixAccounts J) dstMetas
  pure ⟨subsidy, start, finish⟩

/-- `apply_sync_sol_value`, libs/s-jup-interface/src/core/common.rs:12-27, with all it returns: the new total, the LST's new value and the
reserves. -/
def SPool.applySyncFull (L : RatioLib) (S : SPool) (total : Nat) (s : LstState) (d : LstData) : R (Nat × Nat × Nat) := do
  let reserves ← okOr d.reserves .notReady
  let v ← d.solCalc.lstToSol L S.epoch reserves
  let t ← syncedTotal total s.solValue v.min
  pure (t, v.min, reserves)

/-- The loop of rebal_stake.rs:205-214: raises the balance one by one until it is worth `required`. `fuel` bounds the iterations by what a
u64 leaves (running out is the overflow of `+= 1`). -/
def raiseUntil (L : RatioLib) (epoch : Nat) (c : KnownCalc) (required : Nat) : (fuel x : Nat) → R Nat
  | 0, _ => .error .panic
  | fuel + 1, x => do
    let v ← c.lstToSol L epoch x
    if v.min < required then raiseUntil L epoch c required fuel (x + 1) else pure x

/-- The subsidy of `rebal-stake`, rebal_stake.rs:178-218. `tokensOut` is the stake pools' quote. -/
def rebalStakeSubsidy (L : RatioLib) (S : SPool) (src dst : Pubkey) (amt tokensOut : Nat) : R Nat := do
  let p ← S.pool
  let (sf, df) ← S.findReady src
  let (st, dt) ← S.findReady dst
  let (total, fromValue, fromBalance) ← S.applySyncFull L p.totalSolValue sf df
  let (_, toValue, toBalance) ← S.applySyncFull L total st dt
  let left ← df.solCalc.lstToSol L S.epoch (fromBalance - amt)
  let required := min (U64 - 1) (toValue + (fromValue - left.min))
  let e ← dt.solCalc.solToLst L S.epoch required
  let ending ← raiseUntil L S.epoch dt.solCalc required (U64 - e.max) e.max
  pure (ending - toBalance - tokensOut)

/-- `RebalStakeArgs::run`, subcmd/rebal_stake.rs:78-393: rebalances `amt` of the LST `a` into the LST `b`. -/
def rebalStake (J : JupCfg) (L : RatioLib) (S : SPool) (auth : Pubkey) (a b : SanctumLst) (amt tokensOut : Nat) (payer : Option Nat)
    (withdrawTo : Pubkey) : R RebalPlan := do
  checkRebalAuth S auth
  let subsidy ← rebalStakeSubsidy L S a.mint b.mint amt tokensOut
  checkSubsidy subsidy payer
  let srcMetas ← calcMetas J a
  let dstMetas ← calcMetas J b
  let (start, finish) ← rebalIxs J S withdrawTo ⟨a.mint, a.tokenProgram⟩ ⟨b.mint, b.tokenProgram⟩ amt srcMetas dstMetas
  pure ⟨subsidy, start, finish⟩

/-- `RebalWithdrawSolArgs::run`, subcmd/rebal_withdraw_sol.rs:79-328: rebalances `amt` of the LST `e` into wrapped SOL. `withdrawn` is
`quote_withdraw_sol(amt)`. The two plain subtractions are modelled as failing on underflow (a debug build panics; the release profile of the
workspace would wrap). -/
def rebalWithdrawSol (J : JupCfg) (L : RatioLib) (S : SPool) (auth : Pubkey) (e : SanctumLst) (amt withdrawn : Nat) (payer : Option Nat)
    (withdrawTo : Pubkey) : R RebalPlan := do
  checkRebalAuth S auth
  let (_, d) ← S.findReady e.mint
  let init ← okOr d.reserves .panic
  let before ← d.solCalc.lstToSol L S.epoch init
  let left ← subU64 init amt
  let after ← d.solCalc.lstToSol L S.epoch left
  let required ← subU64 before.min after.min
  let subsidy := required - withdrawn
  checkSubsidy subsidy payer
  let srcMetas ← calcMetas J e
  let (start, finish) ← rebalIxs J S withdrawTo ⟨e.mint, e.tokenProgram⟩ ⟨J.wsolMint, J.cfg.splToken⟩ amt srcMetas
    (KnownCalc.wsol.ixAccounts J)
  pure ⟨subsidy, start, finish⟩

/-- What `quote_withdraw_sol` reads of an SPL stake pool: the figures the calculator uses, the fee on withdrawing SOL and the lamports of the reserve
stake account (`WithdrawSolStakedex::SplLike`, cli/s-controller/src/stakedex_reimpl/withdraw_sol.rs:18-26). -/
structure SolPool where
  pool : SplCalc
  solFeeNum : Nat
  solFeeDenom : Nat
  reserveLamports : Nat
deriving DecidableEq, Repr

/-- `StakePool::calc_lamports_withdraw_amount` (crate spl-stake-pool, not in /repo): a share of the pool's lamports, rounded down. -/
def SolPool.share (q : SolPool) (burnt : Nat) : R Nat :=
  if burnt * q.pool.totalLamports < q.pool.poolTokenSupply ∨ q.pool.poolTokenSupply = 0 then pure 0
  else toU64 (burnt * q.pool.totalLamports / q.pool.poolTokenSupply) .math

/-- `STAKE_ACCOUNT_RENT_EXEMPT_LAMPORTS` (crate stakedex_sdk_common, not in /repo). -/
@[irreducible] def STAKE_RENT : Nat := 2282880

/-- `WithdrawSolStakedex::quote_withdraw_sol`, stakedex_reimpl/withdraw_sol.rs:91-121;
`calc_pool_tokens_sol_withdrawal_fee` (crate spl-stake-pool, not in /repo) takes the fee in pool tokens, rounded up. -/
def SolPool.quoteWithdrawSol (q : SolPool) (lst : Nat) : R Nat := do
  let avail ← subU64 q.reserveLamports STAKE_RENT
  let fee ← toU64 (ceilFee q.solFeeNum q.solFeeDenom lst) .math
  let burnt ← subU64 lst fee
  let lamports ← q.share burnt
  require (lamports ≤ avail) .panic
  pure lamports

/-- `RebalWithdrawSolArgs::run`, subcmd/rebal_withdraw_sol.rs:79-328, with the stake pool's quote (line 186). The order of the quote and of the checks before
it does not matter: all of them only read. -/
def rebalWithdrawSolCmd (J : JupCfg) (L : RatioLib) (S : SPool) (auth : Pubkey) (e : SanctumLst) (q : SolPool) (amt : Nat) (payer : Option Nat)
    (withdrawTo : Pubkey) : R RebalPlan := do
  let withdrawn ← q.quoteWithdrawSol amt
  rebalWithdrawSol J L S auth e amt withdrawn payer withdrawTo

/-- `slice::chunks(4)` (`MAX_GENERIC_SOL_VAL_CALC_SYNCS_PER_TX`, subcmd/sync_all.rs:22). -/
def chunks4 {α : Type} : List α → List (List α)
  | [] => []
  | [a] => [[a]]
  | [a, b] => [[a, b]]
  | [a, b, c] => [[a, b, c]]
  | a :: b :: c :: d :: rest => [a, b, c, d] :: chunks4 rest

/-- The LSTs of the pool that are on the Sanctum list, subcmd/sync_all.rs:63-72, with `find_sanctum_lst_by_mint`, common.rs:114-116. -/
def knownLsts (list : List SanctumLst) (lsts : List LstState) : List SanctumLst :=
  lsts.filterMap fun s => list.find? fun e => e.mint = s.mint

/-- The instruction for one LST, subcmd/sync_all.rs:80-102. `lsts` is the list as fetched at the start. -/
def syncAllIx (J : JupCfg) (lsts : List LstState) (e : SanctumLst) : R TopIx := do
  let ms ← calcMetas J e
  syncByMint J.cfg lsts ⟨e.mint, e.tokenProgram⟩ ms

/-- The transaction of one chunk, subcmd/sync_all.rs:78-104 (without the compute-budget instructions). -/
def syncAllTx (J : JupCfg) (env : Env J.cfg) (lsts : List LstState) (chunk : List SanctumLst) : R (Tx J.cfg) := do
  let ixs ← chunk.mapM (syncAllIx J lsts)
  pure (ixs.map fun ix => Step.controller ⟨env, ix.accs, ix.data⟩)

/-- One chunk, subcmd/sync_all.rs:77-131: unless forced, the transaction is simulated and not sent if the pool state comes out as `p₀`, the one
fetched at the start (`does_tx_modify_pool_state`, rpc.rs:34-82; bytes are compared, here their contents). A failing simulation or transaction ends the
command. -/
def syncAllChunk (J : JupCfg) (L : RatioLib) (env : Env J.cfg) (force : Bool) (lsts : List LstState) (p₀ : PoolState) (w : World)
    (chunk : List SanctumLst) : R World := do
  let tx ← syncAllTx J env lsts chunk
  if force then Tx.run L w tx
  else do
    let sim ← Tx.run L w tx
    if sim.ctl.pool = some p₀ then pure w else Tx.run L w tx

/-- `SyncAllArgs::run`, subcmd/sync_all.rs:41-136, when nothing else happens on the chain meanwhile. `env` is what the calculator programs do. -/
def syncAll (J : JupCfg) (L : RatioLib) (list : List SanctumLst) (env : Env J.cfg) (force : Bool) (w : World) : R World := do
  let p ← okOr w.ctl.pool .panic
  (chunks4 (knownLsts list w.ctl.lsts)).foldlM (syncAllChunk J L env force w.ctl.lsts p) w

/-- `LstArg`, cli/s-controller/src/lst_arg.rs:10-14. -/
inductive LstArg
  | sanctumLst (e : SanctumLst)
  | unknown (mint : Pubkey)
deriving DecidableEq, Repr

/-- `LstArg::parse_arg`, lst_arg.rs:17-33: the argument is a public key or else a symbol. `symbol` gives the symbols of the entries of the list. -/
def LstArg.parse (symbol : SanctumLst → String) (list : List SanctumLst) : Pubkey ⊕ String → R LstArg
  | .inl mint => .ok (match list.find? fun e => e.mint = mint with | some e => .sanctumLst e | none => .unknown mint)
  | .inr s => do
    let e ← okOr (list.find? fun e => symbol e = s) .panic
    pure (.sanctumLst e)

/-- `LstArg::mint`, lst_arg.rs:35-40. -/
def LstArg.mint : LstArg → Pubkey
  | .sanctumLst e => e.mint
  | .unknown m => m

/-- The accounts for the calculator, subcmd/sync.rs:69-84: those of the list, else the mint and the accounts given with `--suffix`. -/
def LstArg.metas (J : JupCfg) (suffix : List Pubkey) : LstArg → R (List Acc)
  | .sanctumLst e => calcMetas J e
  | .unknown m => .ok (roMeta m :: suffix.map roMeta)

/-- `SyncArgs::run`, subcmd/sync.rs:50-139, when nothing else happens on the chain meanwhile. -/
def syncOne (J : JupCfg) (L : RatioLib) (env : Env J.cfg) (force : Bool) (arg : LstArg) (suffix : List Pubkey) (w : World) : R World := do
  let ms ← arg.metas J suffix
  let p ← okOr w.ctl.pool .panic
  let m ← okOr (w.led.mints arg.mint) .panic
  let ix ← syncByMint J.cfg w.ctl.lsts ⟨arg.mint, m.program⟩ ms
  let tx : Tx J.cfg := [Step.controller ⟨env, ix.accs, ix.data⟩]
  if force then Tx.run L w tx
  else do
    let sim ← Tx.run L w tx
    if sim.ctl.pool = some p then pure w else Tx.run L w tx

/-- What `view` prints of one LST, subcmd/view.rs:92-144. (Amounts are printed in SOL, as floating point numbers.) -/
structure LstView where
  lst : LstState
  /-- The entry of the Sanctum list whose symbol is printed in place of the mint. -/
  listed : Option SanctumLst
  inputDisabled : Bool
  reservesAddr : Pubkey
  reserves : Nat
  feesAddr : Pubkey
  fees : Nat
deriving DecidableEq, Repr

/-- The token program of an LST, subcmd/view.rs:112-115: from the list, else the owner of the mint. -/
def viewTokenProgram (w : World) (mint : Pubkey) : Option SanctumLst → R Pubkey
  | some e => .ok e.tokenProgram
  | none => do
    let m ← okOr (w.led.mints mint) .panic
    pure m.program

/-- One LST of `view`, subcmd/view.rs:92-144. -/
def viewLst (J : JupCfg) (list : List SanctumLst) (w : World) (s : LstState) : R LstView := do
  let e := list.find? fun e => e.mint = s.mint
  let tp ← viewTokenProgram w s.mint e
  let res ← poolReserves J.cfg s tp
  let fee ← feeAccumulator J.cfg s tp
  let a ← tokenBalance w.led res
  let b ← tokenBalance w.led fee
  pure ⟨s, e, decide (isTrue s.isInputDisabled), res, a, fee, b⟩

/-- What `view` prints: the LP supply, the pool state and the LSTs. -/
structure PoolView where
  supply : Nat
  pool : PoolState
  lsts : List LstView
deriving DecidableEq, Repr

/-- `ViewArgs::run`, subcmd/view.rs:22-147, without `--raw` (with it, the pool state and the list are printed as they are). -/
def viewPool (J : JupCfg) (list : List SanctumLst) (w : World) : R PoolView := do
  let p ← okOr w.ctl.pool .panic
  let lp ← okOr (w.led.mints p.lpTokenMint) .panic
  let lsts ← w.ctl.lsts.mapM (viewLst J list w)
  pure ⟨lp.supply, p, lsts⟩

end S
