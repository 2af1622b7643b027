# Formal model of igneous-labs/S in Lean 4

## Approach

The code is modelled function by function as total computable Lean functions over
natural numbers with explicit machine bounds, errors in `Except Err`. A Solana instruction is a function
`World -> accounts -> data -> Except Err World`; a failing transaction leaves the world unchanged.
Histories are lists of transactions; a transaction is a list of top-level instructions, of this program
or of foreign programs (which may call into this program any number of times).

| module | models |
|---|---|
| `Verif.Base` | `Except` plumbing, u64 bounds |
| `Verif.Ratio` | crate `sanctum-token-ratio` 0.2.0 (external, see trusted base) |
| `Verif.Calc` | `libs/s-controller-lib/src/calc.rs`, `state.rs` |
| `Verif.Calculators` | `libs/sol-value-calculator-programs/*-calculator-lib/src/calc.rs` |
| `Verif.World` | accounts of the controller (pool state, LST list, disable authorities, rebalance record), token accounts and mints, token-program effects, CPI oracles |
| `Verif.Controller.Verify/User/Admin/Rebalance` | `programs/s-controller/src` all 23 processors with account resolvers, key and privilege checks |
| `Verif.IxData` | `generated/s_controller_interface/src/instructions.rs` instruction data codec and the dispatcher of `programs/s-controller/src/lib.rs` |
| `Verif.Tx`, `Verif.History` | transactions, instruction introspection, foreign programs, histories |
| `Verif.PureEnv` | oracles that answer without touching any account |
| `Verif.FlatFee.{Calc,Program}` | `libs/pricing-programs/flat-fee-lib`, `programs/pricing-programs/*` (all instructions) |
| `Verif.Layout` | byte formats of the accounts the calculators read (stake pool, Lido, Marinade, loader state) |
| `Verif.CalcPrograms` | `generic-pool-calculator-{lib,onchain}`, `programs/sol-value-calculator-programs/*` (SPL, Sanctum SPL, Lido, Marinade, wSOL) |
| `Verif.Fixtures` | the account dumps of `/repo/test-fixtures` as used by the repo's tests, to pin `Layout` |
| `Verif.Serde` | pool state, LST list, authority list byte layouts; `list_account.rs` |
| `Verif.Client` | `libs/s-controller-lib` client builders and by-mint/by-pubkey resolvers |
| `Verif.Jup` | `libs/s-jup-interface`, `pricing-programs/*-jup-interface`, `sol-value-calculator-programs/*-jup-interface`: constructors, updates, accounts to fetch, quotes, instructions and metas |
| `Verif.Example`, `Verif.JupExample` | a concrete pool and history meeting the hypotheses of the theorems |
| `Verif.Proofs.*` | helper lemmas; not part of any statement |
| `Verif.Props.*` | specification vocabulary of each property followed by its theorems and examples |

## Per property

* C01, C16, C18, C19, C33, C46 (`Props/Invariants`, `Props/Lists`) — state invariant of every controller
  instruction, lifted by induction over actions, instructions, transactions and histories.
* C02, C03, C32 (`Props/Rebalance`) — induction over the instruction list of a transaction; start and end matched
  through the rebalance record.
* C04–C07, C44 (`Props/Movements`, `Props/Conservation`) — each instruction inverted into the checks it passed and the
  token movements it made.
* C08 (`Props/Value`) — from the end check of the instruction, for arbitrary oracle answers.
* C09–C12, C23–C25, C35–C37 (`Props/Rates`, `Props/Trades`, `Props/Conversions`) — arithmetic of floor/ceil over
  unbounded naturals, specialised to the calculators of the repo.
* C13–C15, C20, C21, C34, C39, C40, C47, C48 (`Props/Authority`, `Custody`, `InputFlag`, `Supply`, `Lists`) — case
  analysis over all 23 instructions, lifted to histories.
* C22, C41 (`Props/Sync`) — direct computation; success conditions under the invariant.
* C26 (`Props/FlatFee`), C27, C28 (`Props/CalcPrograms`) — state machines of their own, histories by induction.
* C29, C30 (`Props/Serde`, `Props/Stored`), C38 (`Props/Data`) — codec functions on byte lists, round trip by induction.
* C31 (`Props/JupQuote`) — the quote functions modelled separately from the processors and compared with the
  instruction the controller accepts.
* C42, C43 (`Props/Client`, `Props/Lookup`) — the built account lists run through the on-chain resolvers.
* C45, C49, C50 (`Props/JupCache`, `Props/JupSwap`) — induction over sequences of cache updates.
* C51 (`Props/LpPrice`) — induction over the events of a history with the invariant `Backed` and, while a rebalance record exists, its old total
  in place of the recorded one; each instruction by its successful-run structure, deposits and redemptions by C09/C10.
* C52 (`Props/NoProfit`) — tokens conserved per mint (C44) over the history, weighted by rates; the LP tokens of others keep their value by
  C51. Assumes the LP mint is not listed as an LST and that the users' LP balances add up to at most the supply.
* C53 (`Props/JupRefresh`) — the request list of the cache covers what the update reads; after the first round the LST list, pool state and pricing
  program are the chain's, after the second everything else; an invariant over update histories fixes the bumps of cached fee accounts.
* C54 (`Proofs/Live`, `LiveCalc`, `LiveRun`, `Props/JupLive`) — forward execution: each check of the program, in the order it makes them, is derived
  from what the quote and the instruction builder computed, the invariant of reachable states and the token balances being backed by supplies
  (`C44_backed`); the value condition of swaps from the rate laws of the calculators (`C54_exactIn_keeps*`).
* C55 (`Props/Recorded`) — the last sync of each entry in the instruction, with the token movements before it and none that matter after it.
* C56 (`Cli`, `Proofs/RebalLive`, `Props/CliRebalance`) — the commands' computations and instructions are modelled; forward execution of StartRebalance and
  EndRebalance with an explicit intermediate state; a deposit of the conversion's maximum raises every balance's value enough (`AnyCalc.raise`).
* C57 (`Cli`, `Props/CliSync`) — the command is a fold of transactions over chunks of four; invariant: after each chunk the world is the start world with a set of mints `done` recorded at their value (`Ctl.marked`); skipping a chunk is harmless when sums can only grow. Counterexamples without `--force` are evaluated beside the theorems.
* C58 (`FlatFee/Client`, `Props/FlatCli`) — each command is a function from the fetched accounts to instructions; theorems run them through the program model of C26 with accounts as seen on chain (`SeenAs`). The batch is an induction over the list of fee accounts, whose keys are distinct.
* C59 (`CalcCli`, `Props/CalcCli`) — likewise for the calculators' tool, through the program model of C27/C28.
* C60 (`AdminCli`, `Props/AdminCli`) — each command is a function of the chain's state and its arguments to the instructions it sends. `Results` says which
  results the controller gives for such an instruction, whatever other programs, other instructions' account flags and the transaction do; it is proved by
  evaluating the controller's checks on the instruction's accounts, in both directions.
* C61 (`Props/Canonical`) — invariant over histories: the stored bumps are the canonical ones; with C46's account invariant this gives the accounts.
* C62 (`Props/Lamports`) — a second, separate model (`Lamports.lean`) of the lamport movements of every instruction, beside the model of its other effects; each accepted instruction's movement is characterised exactly (`Raised`, `Refunded`: small specifications of a payment), conservation is proved per instruction, and rent exemption by induction over histories.
* C63, C64 (`Props/Privileges`) — from the trace of ledger operations of each instruction (each on an account whose writable flag and authority the
  instruction checked) and, for the program's own accounts, from the inverted runs; C64 adds up the debits of an account over the trace of the instruction.
* C65–C68 (`System`, `Proofs/System`, `Props/System`) — a model of the programs deployed together: its state is the controller's world and the instructions the flat-fee program and each
  calculator have executed; the controller's questions are answered by the models of C26–C28 from that state. A history of the system is projected to a history of the controller
  (`ctlHistory`), so that its theorems transfer; C66 composes C27/C28 with the history of acknowledgements, C67 composes C04–C07 with the calculators' and flat-fee program's answers, C68
  transfers C51 and C52. Simplification: a foreign calculator or pricing program does not call the flat-fee program or a calculator back while the controller waits for its answer.
* C69 (`Props/RebalanceMoves`) — by inversion of the three instructions' runs, as C04–C07.
- **C70** (`Props/Exit.lean`). On the instruction built by `removeLiquidityByMint`, the processor is run forwards (`remove_live`). `AnyCalc.line`: payouts and inverse conversions of every calculator lie on the proper sides of one straight line, hence output plus protocol fee never exceed reserves worth the LP tokens' value. The existence of an LST that covers an n-th of the supply is a pigeonhole argument over `total_sol_value = Σ sol_value` (C01). Assumes working programs (`Serves`, `Quotes`), a holder with token accounts, LST mint ≠ LP mint and at most 2^32 LSTs.
- **C71** (`Props/Payout.lean`). Withdrawal rules of the stake pools are written down as a specification (`payout`) from raw pool fields; `C71_value` is an equivalence including when the calculator answers. Added because a mutation (tickets not subtracted from Marinade's backing) was not noticed by C23/C35/C36, which hold of any proportional formula.

* C72 (`Cli`, `Props/CliSyncOne`) — `sync` is a function of the chain's state; the instruction it builds is inverted through `processSync_inv`, the record compared with
  the independent `Ctl.recordAll`; skipping is harmless because, with one LST, an unchanged total means an unchanged value.
* C73 (`Cli`, `Props/CliView`) — `view` is a function of the chain's state; success and contents follow from C61 and the invariants. Printing as floating point is not modelled.
* C74 (`Props/FairValue`) — C67 composed with C71: conversions in the system are replaced by the stake pools' own payout rules; `Under`/`Over` say "to within the slack".
* C75 (`Props/JupFees`) — the quotes' fee fields against the payout rules of C71, by inverting the quote functions.
* C76 (`Props/FlatCliView`) — the simulated instruction is run by the model of the program with the addresses the tool derives; `create-lut` by induction over its batches, against a specification of the lookup table program.

- **C77** (`Props/Slippage.lean`): the user instructions are inverted once for the successful run; the same run with another limit reaches the slippage
  check with the same amounts, so it either continues to the same state or stops there with `slippageToleranceExceeded`.
- **C78** (`Props/Impact.lean`): the movements of a swap (C04, C05) are computed from three calculator/pricing answers and the fee rate only; with `Env.pure` these are
  functions of the request. `C78_front_running` instantiates the two states with a state and its successor under users' transactions (`ByUsers`).
- **C79** (`Props/RedeemLater.lean`): the LP price does not fall (C51); floor division, the flat-fee redemption price and the SOL-to-LST conversion are monotone.
- **C80** (`Props/JupCurrent.lean`): every quote syncs each of its LSTs, which needs the calculator's `usable`; `Full` (C53) carries the figures over to the chain.

- **C81** (`Props/Subsidy.lean`): the commands are inverted; the LST range of C71 (`C71_tight`) bounds the maximum from both sides, and the search loop stops at its first value.
- **C82** (`Cli`, `Props/Subsidy.lean`): `quote_withdraw_sol` is modelled on top of the formulas of the spl-stake-pool crate; roundings of sums are bounded one by one.

- **C83** (`Wire`, `Proofs/EnvCongr.lean`, `Props/Wire.lean`): the calls are modelled a second time, with the programs' `process_instruction` run on the bytes sent and the answer decoded from the return data; both environments agree on every request a controller instruction makes (all amounts it sends are u64), and an instruction cannot distinguish environments that agree there. Assumption: `get_borsh_return_data` (crate `sanctum-misc-utils`, not in /repo) yields `None` when the data are absent or too short and ignores trailing bytes; the programs of this repository never return trailing bytes.

- **C84** (`Props/DepositWorth.lean`): the numbers of a deposit (C09) with the lower bound of the floor division; in the system by `SysEvent.Reads` (C68) and the flat-fee program's crediting deposits in full. C52 and C68 now also admit movements of tokens among the accounts involved (`MovesAmong`), gifts to the pool included.

- **C85** (`Props/Stale.lean`): the builder is inverted for the state it read, the processor for the state it met; the checks of the program (index against mint, calculator and pricing program, derived addresses) determine the keys of the builder again. Injectivity of associated token addresses gives the token program.

- **C86** (`Props/Order.lean`, `Props/OrderSystem.lean`): each swap moves amounts that depend on the request only (calculator and pricing answers, fee bps), so the balances after a sequence are the initial ones plus a sum over its elements, which a permutation leaves unchanged; the recorded value of an LST touched is what the calculator answers for the final reserves, the others are unchanged, and the total is the sum (C01). In the system the environment of fixed `Outside` is shown to be a pure one.

- **C87** (`Props/Delist.lean`): running a prefix of a transaction does not depend on what follows it except through the search for an EndRebalance, which more instructions do not break; so the extension of a transaction that goes through is a step from the state it reaches, and C69, C60 and C61 describe the steps.

- **C88** (`Proofs/SysLive.lean`, `Props/Deployed.lean`): the assumptions of C70 on the called programs (`Env.Serves`, `Env.Quotes`) are discharged from the programs' own models, by the forward direction of C28 and C25/C26; C77 gives what the holder sees; `Ledger.Backed` in the system follows from C44 (`system_backed`).

- **C89** (`Proofs/JupEffect.lean`, `Props/JupSystem.lean`): C53 (the refresh), C54 (the quote executes), C31 (with the quoted amounts) and C50 (the instruction) are joined over the system model: what C54 assumes of the called programs (`Ready`) is derived from the programs' own models (`sys_ready`), and the library is shown to build the instruction (`swapIx_built`).

- **C90** (`Props/Isolation.lean`): a congruence over the environment: each processor is shown to give the same result in two environments that agree on the programs in `Ix.Needs` (a small specification by cases on the instruction), using what the verification step establishes about the programs called; `calcProcess_local` shows that calculators read only the accounts passed.

- **C91** (`Props/FeeLedger.lean`): a book entry (fee charged, taken, sent by others) is specified per event from the instruction, its accounts and the answers it got; the identity for one event follows from C04–C07 and C69 with the invariant that reserves and accumulators are different accounts, and the identity for histories by induction on the chain of events.

- **C92** (`Props/LeaveAll.lean`): strong induction on the holder's LP balance. Each step redeems the smaller of the balance and an n-th of the supply for an LST that covers it (C70); the proof of liveness (C70, C88) is extended to say what the redemption leaves behind (recorded value = what the stake pool pays for the remaining reserves, other reserves and all wallets as before), so that the pool is in order again.

- **C93** (`CliRoute.lean`, `Props/CliRoute.lean`): the amount argument, the search for a route and the instruction lists of the three commands are modelled; the stake pools' quotes are parameters. That the client's derived reserves address is the one the program uses follows from the injectivity of address derivation and C61; what moves is C69. The route is an induction over the list of quotes. Parsing of decimal SOL amounts (f64) is a parameter.

- **C94** (`Props/JupMints.lean`): a quote or instruction needs `find_ready_lst` to succeed for each LST and the cached pool for the LP mint; the refreshed list is C53 with C18's distinct mints. Found by mutation f53: no theorem constrained `get_reserve_mints` before.

- **C95** (`Props/CliRoute.lean`): the instructions carry the keys that must sign; the controller's two only name the rebalance authority (C56's description of the instructions), which the command has compared with its signer.

- **C96** (`CliArgs.lean`, `Props/CliArgs.lean`): the two argument parsers are modelled over texts with `Pubkey::from_str` as a parameter, and specified by the table of names of the help text (`Names`). Composed with C60's `set-pricing-prog` and C59's queries. The search for a free stake address is an induction over the seeds.

- **C97** (`ForProg.lean`, `Props/ForProg.lean`): two configurations, `D` for the constants compiled into the library and `P` for the `--program` deployment, sharing the derivation of associated token addresses. The four `resolve_for_prog` that use `create_pool_reserves_address` take the reserves from `D` and everything else from `P`. By inversion of the four processors at `P`, the reserves account of an accepted instruction is derived from `P`'s pool state; injectivity of the derivation does the rest. The other `_for_prog` builders (swap, liquidity, AddLst, input flags, authority list, settings, EndRebalance) derive everything from the program id, so they are the builders of `Client.lean`/`AdminCli.lean` at `P`, about which C42, C43 and C60 already quantify; C56, C57, C72, C93 and C95 are about the default deployment.

- **C98** (`Props/TimeArb.lean`): from C74 every swap satisfies `payout(out) * 10000 <= payout(in) * n` with the payouts of the stake pools at that moment; two such inequalities are multiplied. For deposits, the LP tokens minted times the total before are at most the payout times the supply, and the redemption's value times the supply then is at most the LP tokens times the total then; the growth of the price per LP token is the quotient. Fees must leave something (`0 < n`; SwapExactOut at a 100% fee rests on a degenerate case of the ratio library, which is not modelled), and the pool has LP tokens at the deposit (the first depositor gets whatever was there).

- **C99** (`Props/Symmetric.lean`): the exact condition of C28 for an answer mentions the question only in its last clause, and the figures of the pool account are unique (`UsablePool.unique`); so all questions asked with one list are answered from one calculator, and C23 applies to pairs of answers.

- **C100** (`Props/Inflation.lean`): from the numbers of a deposit (`DepositNums`) and C84's bound `u * S' < (lp + 1) * T'`: with `lp >= m` a loss below one LP token is a loss below `1/(m+1)` of the deposit. The gain of the other LP tokens follows from `u * S < (lp + 1) * T` and sub-additivity of the calculators.

- **C101** (`ProgLamports.lean`, `Props/ProgLamports.lean`): the lamport movements of the flat-fee program and of the calculators, beside their instructions; inversion of each instruction gives the parties, `topUp_iff`/`pay_refunded` (C62) the movements, and induction over histories of accepted instructions (others may do anything in between except take lamports from the program's accounts; its addresses do not sign) the rent.

- **C102** (`CliFetch.lean`, `Props/CliFetch.lean`): the cache the rebalancing commands make, in the deployed system of C65: a slot starts with no balance and no figures, so whatever it holds after `update_full` came from the answer (`KnownCalc.update_fresh`), and `slot_update` (C53) gives what the LSTs asked for hold. The conclusion is the assumption `Mirrors` of C56, C81 and C82. The two-step loading of the stake pool for `rebal-withdraw-sol` is characterised exactly (`C102_solPool` is an equivalence).

- **C103** (`Props/KeysSafe.lean`): the single-step authority theorems (C13-C15, C18, C26, C28) carried through whole histories by induction over the events: the role's holder is part of the invariant, so a transfer of the role by somebody else is excluded too. For the two other programs the same over histories of the deployed system.

- **C104** (`Props/CliFetchRun.lean`): C102 joined with C56. C56 assumes a cache that shows the chain before StartRebalance; C102 gives one that shows the chain before the transaction, and the instructions before StartRebalance leave the pool's token accounts alone (`Chances.alone`), so `Mirrors` carries over (`Mirrors.ext`). What is left to assume speaks of the chain, except that `delivered` (the quote is delivered) and, for the two SOL commands, `SyncFits` (the total stays within 64 bits) are stated with the cached calculators.

- **C105** (`Props/KeysSafeLeave.lean`): C103 for the controller's events of a history of the system (`SysUnsigned`), with C02, gives that the pool stays open and its configuration the same; the client library's builder reads only configuration (`resolveLiq_setup`), so the instruction built earlier is the one C88 shows to go through.

- **C106** (`Props/LeastPriv.lean`): `Asks ix given signers writable` says of an instruction which keys may be asked to sign and which to be written. Each builder is inverted and its metas compared with the lists. Upper bounds only: that the flags suffice is C42, C85 and the command properties C58, C60 (the program accepts the instruction).

## Observations made while modelling

These are behaviours of the code that the model reproduces; no theorem hides them.

* `remove-lst` of the controller's tool does not check the admin's key before building its transaction, unlike its siblings.
* The rebalancing commands take `--program`, but read `all` from, and send the minted tokens and the subsidy to, the reserves of the default program's pool (`find_pool_reserves_address` without a pool id, rebal_stake.rs:117, 337). Only the default program is modelled.
* `rebal-withdraw-sol` takes `--subsidy-payer` and puts a transfer signed by it into the transaction, but signs only with the payer and the rebalance authority (rebal_withdraw_sol.rs:317-327): with another subsidy payer and a subsidy due, the transaction cannot be signed (C95, with an example).
* A subsidy in a Token-2022 LST makes `rebal-sol` and `rebal-stake` panic: the builders of the crate spl_token accept only the SPL Token program (modelled in `subsidyIxs`).
* `find_unused_stake_prog_create_with_seed` says it uses the digits 0-9 as seeds, for ten `rebal-stake`s per epoch; its range `0..9` leaves out 9 (rpc.rs:105-109): there are nine (`C96_seed`).
* `resolve_for_prog` of SyncSolValue, RemoveLst, SetSolValueCalculator and StartRebalance compute the reserves (and the fee accumulator) with the constants of the default deployment (pda.rs:11-16, 39-48): `sync`, `sync-all`, `remove-lst`, `set-sol-value-calculator` and the `rebal-*` commands cannot work with `--program` naming another deployment (`C97_*`).
* Share inflation: the first depositor of an (almost) empty pool can raise the price of an LP token by a gift to the reserves; a later depositor who demands only one LP token then loses up to half of the deposit to it (`Ex.inflated_facts`). The pool mints no locked LP tokens at the start; the protection is `min_lp_out` (C100).
* `withdraw_sol_ix` of cli/s-controller/src/stakedex_reimpl/withdraw_sol.rs chooses its authority account by the pool's `sol_deposit_authority` instead of
  its `sol_withdraw_authority`.
* `withdraw-protocol-fees` derives `payer_ata` from the beneficiary's key, so a missing associated token account of the payer is never created, although
  the code has a case for it.
* The `*_for_prog` resolvers of sync, remove_lst, start_rebalance and set_sol_value_calculator still use the default
  `POOL_STATE_ID` for reserves; only the default program id is modelled.
* The Jupiter pricing cache does not learn the mints of LSTs added after its creation; the cache slots of such LSTs
  stay empty; a fee account that disappears on chain stays cached.
* Quotes check neither pool-disabled nor rebalancing nor equal mints; the add-liquidity quote does not check for zero LP.
* Quotes of zero output (add and remove liquidity) and quotes by which the pool would lose value by rounding (LSTs with withdrawal fees) are
  returned by the library although the program rejects them; C54 states the exact extra conditions.
* The off-chain readers of Lido and Marinade skip the account-type and discriminant checks.
* `remove_liquidity` metas pass the LP mint to the pricing-accounts call (no effect: the flat-fee program adds no accounts there).
* `SetAdmin` works while the pool is disabled.
* C11 (a deposit followed by a redemption does not gain) needs to exclude the LP token itself as the LST, and first
  deposits into a pool already holding LST.
* `withdraw_protocol_fees.rs` of the CLI derives the payer's token account from the beneficiary; `rebal_withdraw_sol.rs` leaves the subsidy payer out
  of the signers. The search loop of `rebal-stake` never iterates (`C56_stake_search`).
* `sync-all` without `--force` skips a chunk whose simulation leaves the pool state as it was *at the start of the command*: offsetting changes in a chunk
  stay unrecorded, and with more than four LSTs even the total can be left wrong (examples in `Props/CliSync`).
* `batch-set-fees` takes every account owned by the program except the state for a fee account (`try_fee_account(..).unwrap()`): anyone can make it panic, or make
  its transaction write to an account that is no LST's, by creating an account and assigning it to the program (hypothesis `Accounts` of C58 excludes this).
* `update-last-upgrade-slot` sends its transaction even if the slot is already recorded (harmless).
* `create-lut` of the flat-fee tool sends the create instruction only together with the first batch: for a program without accounts it announces a new table but creates none. (cli/pricing-programs/flat-fee/src/subcmd/create_lut.rs:44-99)

## Trusted base

**Kernel and axioms.** Lean 4.33.0's kernel. Every theorem of the development depends only on `propext`,
`Classical.choice` and `Quot.sound` (checked by collecting the axioms of every theorem in namespace `S`). No axioms are added,
`native_decide`/`bv_decide` are not used; concrete examples use kernel evaluation (`decide +kernel`, `rfl`).

**The tie between model and code** is by reading: each definition cites the lines it models. The following are
assumptions about things outside /repo, or simplifications.

*Arithmetic.* The crate `sanctum-token-ratio` is not in the sandbox. `Verif.Ratio` assumes: `FloorDiv.apply` = ⌊x·n/d⌋; its reverse has
min ⌊d·y/n⌋ and max ⌈d(y+1)/n⌉; ceil fee reverse min ⌊d·y/(d−n)⌋, max ⌈d(y+1)/(d−n)⌉; floor fee reverse min ⌊d(y−1)/(d−n)⌋
(saturating), max ⌈d·y/(d−n)⌉; zero fee is the identity; results over u64 are errors. These agree with every test vector in /repo; the
degenerate cases (zero numerators/denominators) are *not* assumed but universally quantified (`RatioLib`).

*Addresses.* PDAs, ATAs and fee accounts are injective functions of their seeds (collision resistance), distinct from each
other and from the fixed ids (`Cfg`). Keys are numbers below 2^256 where bytes matter.

*Runtime.* A PDA signs only for its program (`signersOk`); no re-entrancy into the controller while one of its instructions runs;
a failing transaction changes nothing; the instructions sysvar shows the real transaction. Foreign programs' effects on
token accounts are limited to `Ledger.ExtOk` (they cannot move tokens whose owner did not sign, nor mint without the mint authority).
Lamports are modelled beside the instructions, in `Lamports.lean` (C62, controller) and `ProgLamports.lean` (C101, flat-fee program and calculators): a payer short of lamports only adds failures, so the "is accepted exactly if" and liveness claims of the other properties assume a payer who can pay; the transfer/close/create helpers of `sanctum_system_program_lib` are modelled from what they do (System program transfer, assign all lamports), as their source is not in /repo. Compute limits are not modelled. The traits in programs/s-controller/src/account_traits, which only name fields of the generated account structs, are inlined. `load_accounts` takes the first N accounts. The error chosen when several
checks fail in `remove_lst` is simplified (success/failure is not affected).

*Tokens.* Token and token-2022 without transfer fees, permanent delegates or mint close authorities; no delegates, freezes or multisigs. A closed or
non-mint account gives the `.token` error.

*Oracles.* Calculator and pricing programs are arbitrary (`Env`), answering any call in any way and possibly changing accounts
within `ExtOk`. C04–C07, C09–C12, C31, C37, C39 (exact form) and C44 assume a `Quiet` environment (the repo's calculators and pricing programs change no account);
the idempotence/order parts of C22 and the exits of C34 use `Env.pure`. "Usable" calculators have a non-zero supply and balance and a fee below 100 %.

*Flat-fee program.* Accounts of other programs cannot sit at its PDAs; failed transactions are not part of `flatHistory`; `set_lst_fee` on a foreign account fails unless
unchanged; `remove_lst` of a missing account is a no-op.

*Calculators.* Bincode/borsh formats of the loader state and of the stake pools are modelled and pinned on the repo's fixtures; `CalculatorState` is
kept structured (no bytemuck alignment). The Lido/Marinade program-data constant is the loader's record (`LoaderOk`); one usable SPL pool per mint in `calc_values`;
the epoch comes from the clock sysvar.

*Serialization.* Little-endian target, 64-bit `usize`; bytes exposed by `realloc` are arbitrary. `Holds`/`HistoryKeys` assume 32-byte keys.

*Client.* The functions for the default program id, and those for another one that the CLI uses (`ForProg.lean`, C97); accounts given by decoded contents; compiling a message may add signer/writable flags (`Escalates`).

*Jupiter interface.* Hash maps are partial functions; the shared epoch is a field; `Decimal` fee percentages are kept as exact fractions (only division by zero
can fail); the contents of the `sanctum-lst-list` crate are a parameter (`GoodList`), as are the token-account and mint parsers
of external crates; public fields change only through the update functions.

**Not modelled.** Of the CLIs: `clap`'s argument handling (what the named arguments of C93 and C96 stand for is modelled, in `CliRoute.lean` and `CliArgs.lean`), the decimal conversion of amounts, and sending and confirming transactions (the rebalancing commands are modelled from their requests (`CliFetch.lean`) through their computations (`Cli.lean`) to the transactions they send (`CliRoute.lean`); the stake pools' quotes and instructions are parameters), JSON/IDL/serde derive output, logging, error text, the test utilities, `borsh` (de)serialisation of anything except
instruction data and the accounts listed above.

## Mutation testing

`seeded/LOG.jsonl` records edits to the model imitating realistic bugs. An edit is applied to the model and, where the model function has an inversion lemma
(`…_inv`, `…Run` records), the lemma's statement is weakened in the same way, so that a theorem is counted as failing only if it really uses the changed fact.
