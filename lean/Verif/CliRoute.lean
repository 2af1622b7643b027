import Verif.Cli
/-
Model of what the rebalancing commands of cli/s-controller do around the two instructions of the controller: the amount argument, the search for a route
through the stake pools, and the instructions `rebal-stake` puts into its transaction. The stake pools' own quotes (crate `stakedex`) are parameters.
-/
set_option autoImplicit false
namespace S

/-- `LstAmtArg`, cli/s-controller/src/lst_amt_arg.rs:6-9. -/
inductive AmtArg
  | all
  | amt (n : Nat)
deriving DecidableEq, Repr

/-- `LstAmtArg::parse_arg`, lst_amt_arg.rs:12-20. `sol` stands for `arg.parse::<f64>` and `sol_to_lamports`. -/
def AmtArg.parse (sol : String → R Nat) (arg : String) : R AmtArg :=
  if arg.toLower = "all" then pure .all
  else do
    let n ← sol arg
    pure (.amt n)

/-- The amount a command works with, subcmd/rebal_sol.rs:103-113, rebal_stake.rs:114-124, rebal_withdraw_sol.rs:112-122: `all` is the balance of the pool's
reserves of the LST. `fetch` reads a token account. -/
def AmtArg.resolve (cfg : Cfg) (fetch : Pubkey → Option TokenAcc) (src : MintAcc) : AmtArg → R Nat
  | .amt n => pure n
  | .all => do
    let a ← okOr (fetch (cfg.findAta cfg.poolState src.owner src.key).1) .panic
    pure a.amount

/-- `WithdrawStakeQuote` (crate stakedex_sdk_common): the stake account a pool gives out, and the validator it is delegated to. -/
structure WithdrawQuote where
  lamportsOut : Nat
  lamportsStaked : Nat
  voter : Pubkey
deriving DecidableEq, Repr

/-- `DepositStakeQuote` (crate stakedex_sdk_common), without the fee it reports. -/
structure DepositQuote where
  tokensOut : Nat
  voter : Pubkey
deriving DecidableEq, Repr

/-- `prefund_transform_wsq`, stakedex_reimpl/utils.rs:27-32. The addition fails on overflow as in a debug build. -/
def WithdrawQuote.prefund (q : WithdrawQuote) : R WithdrawQuote := do
  let out ← addU64 q.lamportsOut STAKE_RENT
  pure ⟨out, q.lamportsOut, q.voter⟩

/-- `first_avail_withdraw_deposit_stake_quote`, stakedex_reimpl/utils.rs:9-24. -/
def firstRoute (deposit : WithdrawQuote → DepositQuote) : List WithdrawQuote → R (WithdrawQuote × DepositQuote)
  | [] => .error .panic
  | q :: qs => do
    let q' ← q.prefund
    if (deposit q').tokensOut ≠ 0 then pure (q', deposit q') else firstRoute deposit qs

/-- The instructions of the three commands' transactions, with the accounts that matter here; the stake pools' own accounts are left out. -/
inductive CliIx
  /-- `create_associated_token_account_idempotent` -/
  | createAta (payer wallet mint tokenProgram : Pubkey)
  /-- StartRebalance -/
  | start (ix : TopIx)
  /-- `create_account_with_seed`: a stake account at `bridge` -/
  | createStake (payer bridge : Pubkey) (lamports : Nat)
  /-- a pool's `withdraw_stake`: `amount` tokens of `source` for stake of `voter` at `bridge` -/
  | withdrawStake (signer bridge voter source : Pubkey) (amount : Nat)
  /-- a pool's `deposit_stake`: the stake at `bridge` for tokens at `dest` -/
  | depositStake (signer bridge voter dest : Pubkey)
  /-- stakedex's `stake_wrapped_sol`: `amount` wrapped lamports of `source` for tokens at `dest` -/
  | depositSol (signer source dest : Pubkey) (amount : Nat)
  /-- a pool's `withdraw_sol`: `amount` tokens of `source` for lamports at `dest` -/
  | withdrawSol (signer source dest : Pubkey) (amount : Nat)
  /-- token transfer -/
  | transfer (signer source mint dest : Pubkey) (amount : Nat)
  /-- system transfer of lamports -/
  | solTransfer (source dest : Pubkey) (lamports : Nat)
  /-- `sync_native` -/
  | syncNative (account : Pubkey)
  /-- EndRebalance -/
  | finish (ix : TopIx)
deriving DecidableEq, Repr

/-- Whose signatures an instruction needs. -/
def CliIx.signers : CliIx → List Pubkey
  | .createAta p _ _ _ => [p]
  | .start ix => (ix.accs.filter (·.signer)).map Acc.key
  | .createStake p _ _ => [p]
  | .withdrawStake s _ _ _ _ => [s]
  | .depositStake s _ _ _ => [s]
  | .depositSol s _ _ _ => [s]
  | .withdrawSol s _ _ _ => [s]
  | .transfer s _ _ _ _ => [s]
  | .solTransfer s _ _ => [s]
  | .syncNative _ => []
  | .finish ix => (ix.accs.filter (·.signer)).map Acc.key

/-- The stake pools as `rebal-stake` sees them: the quotes of the pool withdrawn from, in order; the quote of the pool deposited into; for Marinade, its
validators (`DepositStakeStakedex`, stakedex_reimpl/deposit_stake.rs:17-89). -/
structure StakeRoute where
  withdraws : Nat → List WithdrawQuote
  deposit : WithdrawQuote → DepositQuote
  validators : Option (List Pubkey)

/-- `spl_withdraw_stake_ix`, stakedex_reimpl/withdraw_stake.rs:83-147. -/
def withdrawStakeIxs (wallet : Pubkey) (amount : Nat) (source bridge : Pubkey) (q : WithdrawQuote) : List CliIx :=
  [.createStake wallet bridge STAKE_RENT, .withdrawStake wallet bridge q.voter source amount]

/-- `deposit_stake_ixs`, stakedex_reimpl/deposit_stake.rs:91-206: Marinade's instruction names the validator's index, so it has to be in the list. -/
def StakeRoute.depositIxs (r : StakeRoute) (wallet dest bridge : Pubkey) (q : DepositQuote) : R (List CliIx) := do
  require (r.validators.all (fun vs => vs.contains q.voter)) .panic
  pure [.depositStake wallet bridge q.voter dest]

/-- The payer's token transfer, rebal_sol.rs:284-296, rebal_stake.rs:363-377. The builders of the crate spl_token accept no other token program
(`check_program_account`), and the commands unwrap. -/
def subsidyIxs (J : JupCfg) (wallet : Pubkey) (e : SanctumLst) (dest : Pubkey) (subsidy : Nat) : R (List CliIx) := do
  require (subsidy = 0 ∨ e.tokenProgram = J.cfg.splToken) .panic
  pure (if subsidy = 0 then [] else [.transfer wallet (J.cfg.findAta wallet e.tokenProgram e.mint).1 e.mint dest subsidy])

/-- The payer's account for what StartRebalance takes out is created unless it exists, rebal_sol.rs:214-222, rebal_stake.rs:265-273,
rebal_withdraw_sol.rs:238-246. -/
def openIxs (J : JupCfg) (fetch : Pubkey → Option TokenAcc) (wallet : Pubkey) (src : MintAcc) : List CliIx :=
  if fetch (J.cfg.findAta wallet src.owner src.key).1 = none then [.createAta wallet wallet src.key src.owner] else []

/-- `RebalStakeArgs::run`, subcmd/rebal_stake.rs:78-393, with the argument, the stake pools' quotes and all the instructions it sends but the compute budget's. `wallet` is
the payer, `fetch` reads token accounts, `bridge` is the unused stake account (`find_unused_stake_prog_create_with_seed`). -/
def rebalStakeCmd (J : JupCfg) (L : RatioLib) (S : SPool) (auth wallet : Pubkey) (a b : SanctumLst) (arg : AmtArg) (r : StakeRoute)
    (fetch : Pubkey → Option TokenAcc) (bridge : Pubkey) : R (List CliIx) := do
  let amt ← arg.resolve J.cfg fetch ⟨a.mint, a.tokenProgram⟩
  let (wsq, dsq) ← firstRoute r.deposit (r.withdraws amt)
  let plan ← rebalStake J L S auth a b amt dsq.tokensOut ((fetch (J.cfg.findAta wallet b.tokenProgram b.mint).1).map TokenAcc.amount)
    (J.cfg.findAta wallet a.tokenProgram a.mint).1
  let dep ← r.depositIxs wallet (J.cfg.findAta J.cfg.poolState b.tokenProgram b.mint).1 bridge dsq
  let sub ← subsidyIxs J wallet b (J.cfg.findAta J.cfg.poolState b.tokenProgram b.mint).1 plan.subsidy
  pure (openIxs J fetch wallet ⟨a.mint, a.tokenProgram⟩ ++
    .start plan.start :: (withdrawStakeIxs wallet amt (J.cfg.findAta wallet a.tokenProgram a.mint).1 bridge wsq ++ dep ++ sub) ++ [.finish plan.finish])

/-- `RebalSolArgs::run`, subcmd/rebal_sol.rs:68-309, with its argument and instructions. `quote` is `quote_deposit_sol` (stakedex_reimpl/deposit_sol.rs:88-98); the
stake instruction is `deposit_sol_ix` (deposit_sol.rs:100-132). -/
def rebalSolTx (J : JupCfg) (L : RatioLib) (S : SPool) (auth wallet : Pubkey) (e : SanctumLst) (arg : AmtArg) (quote : Nat → R Nat)
    (fetch : Pubkey → Option TokenAcc) : R (List CliIx) := do
  let lamports ← arg.resolve J.cfg fetch ⟨J.wsolMint, J.cfg.splToken⟩
  let minted ← quote lamports
  let plan ← rebalSol J L S auth e lamports minted ((fetch (J.cfg.findAta wallet e.tokenProgram e.mint).1).map TokenAcc.amount)
    (J.cfg.findAta wallet J.cfg.splToken J.wsolMint).1
  let sub ← subsidyIxs J wallet e (J.cfg.findAta J.cfg.poolState e.tokenProgram e.mint).1 plan.subsidy
  pure (openIxs J fetch wallet ⟨J.wsolMint, J.cfg.splToken⟩ ++
    .start plan.start :: (.depositSol wallet (J.cfg.findAta wallet J.cfg.splToken J.wsolMint).1 (J.cfg.findAta J.cfg.poolState e.tokenProgram e.mint).1 lamports ::
      sub) ++ [.finish plan.finish])

/-- `RebalWithdrawSolArgs::run`, subcmd/rebal_withdraw_sol.rs:79-328, with its argument and instructions; `payer` is the subsidy payer and `payerSol` its lamports. -/
def rebalWithdrawSolTx (J : JupCfg) (L : RatioLib) (S : SPool) (auth wallet payer : Pubkey) (e : SanctumLst) (arg : AmtArg) (q : SolPool)
    (payerSol : Option Nat) (fetch : Pubkey → Option TokenAcc) : R (List CliIx) := do
  let amt ← arg.resolve J.cfg fetch ⟨e.mint, e.tokenProgram⟩
  let plan ← rebalWithdrawSolCmd J L S auth e q amt payerSol (J.cfg.findAta wallet e.tokenProgram e.mint).1
  pure (openIxs J fetch wallet ⟨e.mint, e.tokenProgram⟩ ++
    .start plan.start :: (.withdrawSol wallet (J.cfg.findAta wallet e.tokenProgram e.mint).1 (J.cfg.findAta J.cfg.poolState J.cfg.splToken J.wsolMint).1 amt ::
      ((if plan.subsidy = 0 then [] else [.solTransfer payer (J.cfg.findAta J.cfg.poolState J.cfg.splToken J.wsolMint).1 plan.subsidy]) ++
        [.syncNative (J.cfg.findAta J.cfg.poolState J.cfg.splToken J.wsolMint).1])) ++ [.finish plan.finish])

end S
