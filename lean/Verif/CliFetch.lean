import Verif.Cli

/-!
How the rebalancing commands of the controller's command line (cli/s-controller/src/subcmd/rebal_sol.rs, rebal_stake.rs and rebal_withdraw_sol.rs) make the
cache they work on, and how `rebal-withdraw-sol` loads the stake pool it quotes the withdrawal from (src/stakedex_reimpl/withdraw_sol.rs).
-/

set_option autoImplicit false

namespace S

/-- `get_accounts_to_update_lsts_filtered`, libs/s-jup-interface/src/update.rs:115-137. -/
def SPool.toFetchLsts (J : JupCfg) (S : SPool) (pred : LstState → Bool) : List Pubkey :=
  match S.lstList.lsts with
  | .error _ => []
  | .ok lsts => ((lsts.zip S.data).filter fun e => pred e.1).flatMap fun e => lstToFetch J e.1 e.2

/-- The cache the rebalancing commands work on: rebal_sol.rs:124-133 and 146-154, rebal_stake.rs:135-144 and 158-171, rebal_withdraw_sol.rs:132-141 and
153-161. `fetch` is `fetch_accounts_as_map` (src/rpc.rs): the accounts asked for, by key; sorting and deduplicating the request makes no difference to the
answer. `extra` are the accounts the stake pool routes of rebal_stake.rs:162-163 ask for in the same request. `unwrap` turns an error into a panic; the error
itself is kept here. -/
def rebalCache (J : JupCfg) (list : List SanctumLst) (epoch : Nat) (lstList poolState : Blob) (mints extra : List Pubkey)
    (fetch : List Pubkey → AccMap) : R SPool := do
  let S ← SPool.fromInit J list epoch lstList poolState
  let r := S.updateFull J (fetch (S.toFetchLsts J (fun s => decide (s.mint ∈ mints)) ++ extra))
  r.2
  pure r.1

/-! ### Loading the stake pool SOL is withdrawn from -/

/-- Accounts by key, with their data and lamports (`HashMap<Pubkey, Account>`). -/
abbrev LamMap := Pubkey → Option (List UInt8 × Nat)

/-- `WithdrawSolStakedex::SplLike`, withdraw_sol.rs:18-26. Of the stake pool, only the fields the quote uses and the reserve account are kept. -/
structure SolLoader where
  addr : Pubkey
  reserve : Pubkey
  q : SolPool
deriving DecidableEq, Repr

/-- `from_sanctum_lst`, withdraw_sol.rs:29-55 (`StakePool::default()` is all zeroes): only for LSTs of an SPL stake pool. -/
def SolLoader.new : PoolInfo → R SolLoader
  | .spl _ pool => .ok ⟨pool, 0, ⟨⟨0, 0, 0, 0, 0⟩, 0, 0, 0⟩⟩
  | _ => .error .panic

/-- `get_accounts_to_update`, withdraw_sol.rs:57-68. -/
def SolLoader.toFetch (l : SolLoader) : List Pubkey := [l.addr, l.reserve]

/-- `try_from_slice_unchecked::<StakePool>`, withdraw_sol.rs:83: the reserve account, the pool's figures and its SOL withdrawal fee (numerator and
denominator). Neither the account's type nor its owner is checked. -/
def readSolPool (b : List UInt8) : R (Pubkey × SplCalc × Nat × Nat) :=
  match decodeFields splLayout.flds b with
  | .error _ => .error .invalidStakePoolProgramData
  | .ok (vs, _) => .ok (splLayout.get vs .reserveStake,
      ⟨splLayout.get vs .lastUpdateEpoch, splLayout.get vs .totalLamports, splLayout.get vs .poolTokenSupply,
       splLayout.get vs .withdrawalFeeNumerator, splLayout.get vs .withdrawalFeeDenominator⟩,
      splLayout.get vs .solWithdrawalFeeNumerator, splLayout.get vs .solWithdrawalFeeDenominator)

/-- `update`, withdraw_sol.rs:70-91. The stake pool is stored even if its reserve account is missing from the map. -/
def SolLoader.update (m : LamMap) (l : SolLoader) : SolLoader × R Unit :=
  match m l.addr with
  | none => (l, .error .notReady)
  | some (b, _) => match readSolPool b with
    | .error e => (l, .error e)
    | .ok (res, c, num, den) => match m res with
      | none => (⟨l.addr, res, ⟨c, num, den, l.q.reserveLamports⟩⟩, .error .notReady)
      | some (_, lam) => (⟨l.addr, res, ⟨c, num, den, lam⟩⟩, .ok ())

/-- rebal_withdraw_sol.rs:142 and 162-165: the first update is with the accounts fetched for the pool's cache, and its error is ignored; then the stake pool
and the reserve account it named are fetched and the second update must succeed. -/
def loadSolPool (pool : PoolInfo) (first : LamMap) (fetch : List Pubkey → LamMap) : R SolPool := do
  let l ← SolLoader.new pool
  let l := (l.update first).1
  let r := l.update (fetch l.toFetch)
  r.2
  pure r.1.q

end S
