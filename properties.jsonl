{"id": "C01", "title": "Recorded pool total equals the sum of recorded LST values", "statement": "After any history of transactions, the pool's recorded total SOL value is exactly the sum of the recorded SOL values of the LSTs on the list.", "quantifier": "every history of transactions (any instructions, accounts, data bytes, foreign program activity and calculator answers), every list length", "why_tests_cant": "The value is maintained incrementally by seven different instructions; only an invariant over all histories rules out drift.", "anchors": ["libs/s-controller-lib/src/state.rs: sync_sol_value_with_retval", "programs/s-controller/src/processor/sync_sol_value.rs: sync_sol_value_unchecked", "programs/s-controller/src/processor/add_lst.rs", "programs/s-controller/src/processor/remove_lst.rs", "programs/s-controller/src/processor/set_sol_value_calculator.rs"]}
{"id": "C02", "title": "The pool is never left rebalancing", "statement": "After every successful transaction the pool is not marked as rebalancing and no rebalance record exists, so no user can find the pool locked by an unfinished rebalance.", "quantifier": "every sequence of successful transactions, every number and order of top-level instructions, every set of nested calls made by other programs", "why_tests_cant": "It depends on all instruction orderings inside a transaction, including several start/end pairs and calls from other programs.", "anchors": ["programs/s-controller/src/processor/start_rebalance.rs: verify_has_succeeding_end_rebalance_ix", "programs/s-controller/src/processor/end_rebalance.rs"]}
{"id": "C03", "title": "A rebalance cannot lower the recorded total SOL value", "statement": "If a transaction starts a rebalance and succeeds, the recorded total SOL value when the rebalance ends is at least the recorded total at its start (after syncing both LSTs and before any LST left the pool).", "quantifier": "every transaction containing a rebalance, whatever happens between start and end, any amounts and calculators", "why_tests_cant": "The code between start and end is arbitrary third-party code.", "anchors": ["programs/s-controller/src/processor/start_rebalance.rs: process_start_rebalance", "programs/s-controller/src/processor/end_rebalance.rs: process_end_rebalance"]}
{"id": "C04", "title": "SwapExactIn moves exactly the promised tokens", "statement": "A successful SwapExactIn takes exactly `amount` source LST from the user into the source reserves, gives the user exactly SolToLst(PriceExactIn(LstToSol(amount))) destination LST, which is at least `min_amount_out` and non-zero, moves only the protocol fee to the accumulator, and changes no other token account or mint.", "quantifier": "every pool state, account list, argument, calculator and pricing answer", "why_tests_cant": "All combinations of balances, prices, fees and aliased accounts must be covered.", "anchors": ["programs/s-controller/src/processor/swap_exact_in.rs: process_swap_exact_in"]}
{"id": "C05", "title": "SwapExactOut moves exactly the promised tokens", "statement": "A successful SwapExactOut gives the user exactly `amount` destination LST, takes exactly SolToLst(PriceExactOut(LstToSol(amount))) source LST, which is non-zero and at most `max_amount_in`, moves only the protocol fee to the accumulator, and changes no other token account or mint.", "quantifier": "every pool state, account list, argument, calculator and pricing answer", "why_tests_cant": "All combinations of balances, prices, fees and aliased accounts must be covered.", "anchors": ["programs/s-controller/src/processor/swap_exact_out.rs: process_swap_exact_out"]}
{"id": "C06", "title": "AddLiquidity moves exactly the promised tokens", "statement": "A successful AddLiquidity takes exactly `lst_amount` from the user, split between reserves and protocol fee accumulator, and mints to the user exactly the LP amount given by the LP rate before the deposit, which is at least `min_lp_out` and non-zero.", "quantifier": "every pool state, account list, argument, calculator and pricing answer", "why_tests_cant": "All combinations of supplies, totals, prices and fees must be covered.", "anchors": ["programs/s-controller/src/processor/add_liquidity.rs: process_add_liquidity", "libs/s-controller-lib/src/calc.rs: calc_lp_tokens_to_mint, calc_add_liquidity_protocol_fees"]}
{"id": "C07", "title": "RemoveLiquidity moves exactly the promised tokens", "statement": "A successful RemoveLiquidity burns exactly `lp_token_amount` LP tokens from the user and pays exactly SolToLst(PriceLpTokensToRedeem(LP value)) LST, at least `min_lst_out` and non-zero, plus the protocol fee to the accumulator, out of the reserves.", "quantifier": "every pool state, account list, argument, calculator and pricing answer", "why_tests_cant": "All combinations of supplies, totals, prices and fees must be covered.", "anchors": ["programs/s-controller/src/processor/remove_liquidity.rs: process_remove_liquidity", "libs/s-controller-lib/src/calc.rs: calc_lp_tokens_sol_value, calc_remove_liquidity_protocol_fees"]}
{"id": "C08", "title": "Swaps and deposits never lower the recorded total SOL value", "statement": "A successful SwapExactIn, SwapExactOut or AddLiquidity ends with a recorded total SOL value at least as large as the recorded total after syncing the involved LSTs at its start, even when the pricing program and the calculators are malicious.", "quantifier": "every state, argument, and every behaviour of pricing and calculator programs", "why_tests_cant": "Adversarial pricing programs cannot be enumerated.", "anchors": ["programs/s-controller/src/processor/swap_exact_in.rs", "programs/s-controller/src/processor/swap_exact_out.rs", "programs/s-controller/src/processor/add_liquidity.rs"]}
{"id": "C09", "title": "Adding liquidity never dilutes existing LPs", "statement": "With a proportional calculator, total SOL value per LP token after a successful AddLiquidity is at least the value before it (after sync); for the calculators with two rounding steps the possible loss is bounded by a stated number of lamports.", "quantifier": "every pool state with a positive LP supply, every deposit amount, exchange rate, protocol fee rate and pricing answer", "why_tests_cant": "Rounding interplay over all u64 rates and amounts.", "anchors": ["programs/s-controller/src/processor/add_liquidity.rs", "libs/s-controller-lib/src/calc.rs", "libs/sol-value-calculator-programs/*-calculator-lib/src/calc.rs"]}
{"id": "C10", "title": "Removing liquidity never dilutes remaining LPs", "statement": "With a proportional calculator, total SOL value per LP token after a successful RemoveLiquidity is at least the value before it (after sync); for the calculators with two rounding steps the possible loss is bounded by a stated number of lamports.", "quantifier": "every pool state, every LP amount, exchange rate, withdrawal fee and protocol fee", "why_tests_cant": "RemoveLiquidity has no final check in the code; only the rounding directions protect the LPs, over all u64 rates.", "anchors": ["programs/s-controller/src/processor/remove_liquidity.rs", "libs/s-controller-lib/src/calc.rs"]}
{"id": "C11", "title": "Deposit followed by withdrawal is never profitable", "statement": "A user who adds liquidity and immediately removes the LP tokens received gets back at most the LST deposited.", "quantifier": "every pool state with LP supply, every amount, rate and fee, for proportional calculators", "why_tests_cant": "Rounding interplay over all u64 values.", "anchors": ["libs/s-controller-lib/src/calc.rs", "programs/s-controller/src/processor/add_liquidity.rs", "programs/s-controller/src/processor/remove_liquidity.rs"]}
{"id": "C12", "title": "The protocol fee never exceeds the fee the user paid", "statement": "The LST sent to the protocol fee accumulator by a swap, deposit or withdrawal is worth at most the protocol's share of the fee actually charged, is zero when no fee was charged, and never exceeds the deposit.", "quantifier": "every fee rate up to 100%, every amount, SOL value and price", "why_tests_cant": "Rounding over all u64 values.", "anchors": ["libs/s-controller-lib/src/calc.rs: calc_swap_protocol_fees, calc_add_liquidity_protocol_fees, calc_remove_liquidity_protocol_fees"]}
{"id": "C13", "title": "A disabled or rebalancing pool refuses trading and configuration", "statement": "While the pool is disabled, swaps, liquidity changes, rebalances, LST list changes, calculator and pricing changes, input toggles, protocol fee changes and withdrawals all fail; while it is rebalancing they fail too.", "quantifier": "every instruction, every account list and argument, every state with the flag set", "why_tests_cant": "Must hold for every instruction on every path.", "anchors": ["programs/s-controller/src/verify.rs: verify_not_rebalancing_and_not_disabled", "programs/s-controller/src/processor/"]}
{"id": "C14", "title": "Privileged instructions need the signature of the stored authority", "statement": "Every successful privileged instruction carries, as a signer, the authority recorded in the pool (admin, rebalance authority, protocol fee beneficiary, or a listed disable authority, as documented for that instruction).", "quantifier": "every privileged instruction, account list, data and state", "why_tests_cant": "An attacker can pass any accounts.", "anchors": ["programs/s-controller/src/processor/", "libs/s-controller-lib/src/accounts_resolvers/", "generated/s_controller_interface/src/instructions.rs: *_verify_account_keys, *_verify_account_privileges"]}
{"id": "C15", "title": "Authorities change only by consent of their holders", "statement": "Over any history, the admin changes only in a SetAdmin signed by the current admin; the fee beneficiary only in a SetProtocolFeeBeneficiary signed by the current beneficiary; the rebalance authority only in an instruction signed by the admin or the current rebalance authority; pricing program, fee rates and calculators only in an instruction signed by the admin.", "quantifier": "every history of transactions", "why_tests_cant": "Needs every instruction to leave these fields alone on every path.", "anchors": ["programs/s-controller/src/processor/set_admin.rs", "programs/s-controller/src/processor/set_protocol_fee_beneficiary.rs", "programs/s-controller/src/processor/set_rebalance_authority.rs", "programs/s-controller/src/processor/set_pricing_program.rs", "programs/s-controller/src/processor/set_protocol_fee.rs"]}
{"id": "C16", "title": "No LST is listed twice", "statement": "After any history the mints of the LSTs on the list are pairwise distinct.", "quantifier": "every history of transactions", "why_tests_cant": "Invariant over unbounded histories.", "anchors": ["programs/s-controller/src/processor/add_lst.rs", "programs/s-controller/src/verify.rs: verify_not_duplicate_lst"]}
{"id": "C17", "title": "Removing an LST cannot lose value or disturb other LSTs", "statement": "RemoveLst succeeds only when the LST's recorded value, its reserves balance and its fee accumulator balance are all zero; it removes exactly that entry and keeps all others, in order, and the total unchanged.", "quantifier": "every list, index, state and account list", "why_tests_cant": "All list shapes and positions.", "anchors": ["programs/s-controller/src/processor/remove_lst.rs", "programs/s-controller/src/list_account.rs: remove_from_list_pda"]}
{"id": "C18", "title": "The disable-authority list is duplicate-free and changed only with authorization", "statement": "After any history the list has no duplicates; entries are added only by the admin and removed only by the admin or by the removed authority itself; other entries are untouched.", "quantifier": "every history of transactions", "why_tests_cant": "Invariant over unbounded histories.", "anchors": ["programs/s-controller/src/processor/add_disable_pool_authority.rs", "programs/s-controller/src/processor/remove_disable_pool_authority.rs"]}
{"id": "C19", "title": "Protocol fee rates never exceed 100%", "statement": "After any history both protocol fee rates are at most 10000 bps.", "quantifier": "every history of transactions", "why_tests_cant": "Invariant over unbounded histories.", "anchors": ["programs/s-controller/src/processor/set_protocol_fee.rs", "programs/s-controller/src/processor/initialize.rs", "libs/s-controller-lib/src/consts.rs"]}
{"id": "C20", "title": "Protocol fees leave only to the beneficiary's order", "statement": "The balance of a protocol fee accumulator decreases only in a WithdrawProtocolFees signed by the current beneficiary, by exactly the requested amount, which never exceeds the balance.", "quantifier": "every history of transactions and every account aliasing", "why_tests_cant": "Every instruction on every path could touch the accumulator.", "anchors": ["programs/s-controller/src/processor/withdraw_protocol_fees.rs"]}
{"id": "C21", "title": "Pool reserves leave only through swaps, redemptions and rebalances", "statement": "The balance of a pool-owned token account decreases only in SwapExactIn, SwapExactOut, RemoveLiquidity or a StartRebalance signed by the rebalance authority.", "quantifier": "every history of transactions and every account aliasing", "why_tests_cant": "Every instruction on every path could touch the reserves.", "anchors": ["programs/s-controller/src/processor/"]}
{"id": "C22", "title": "Syncing is exact, idempotent and order-independent", "statement": "After SyncSolValue the LST's recorded value is the calculator's minimum value of the reserves; syncing again changes nothing; syncing two LSTs in either order gives the same state; other LSTs keep their values.", "quantifier": "every state, LST and calculator answer", "why_tests_cant": "All states and orders.", "anchors": ["programs/s-controller/src/processor/sync_sol_value.rs", "libs/s-controller-lib/src/state.rs"]}
{"id": "C23", "title": "Calculator round trips favour the pool", "statement": "For every calculator, converting an LST amount to SOL and back with the minimum never exceeds the original amount; converting SOL to LST and back with the minimum never exceeds the SOL amount and with the maximum is never below it; the original amount lies within the range returned.", "quantifier": "every stake pool state (rates, fees) and every amount for which the conversions succeed", "why_tests_cant": "All u64 rates and amounts.", "anchors": ["libs/sol-value-calculator-programs/spl-calculator-lib/src/calc.rs", "libs/sol-value-calculator-programs/lido-calculator-lib/src/calc.rs", "libs/sol-value-calculator-programs/marinade-calculator-lib/src/calc.rs", "libs/sol-value-calculator-programs/wsol-calculator-lib/src/lib.rs"]}
{"id": "C24", "title": "Flat-fee exact-in and exact-out pricing agree", "statement": "Paying the exact-out price always buys at least the requested value when priced exact-in; no fee schedule above 100% is accepted; with non-negative fees the output value never exceeds the input value.", "quantifier": "every pair of fees and every SOL value", "why_tests_cant": "All fees and values.", "anchors": ["libs/pricing-programs/flat-fee-lib/src/calc/"]}
{"id": "C25", "title": "LP redemption pricing never pays more than the LP value", "statement": "The flat-fee redemption price is at most the LP value and is the value minus the rounded-up fee; deposit pricing returns the value unchanged; the no-fee program returns every value unchanged.", "quantifier": "every fee rate and value", "why_tests_cant": "All fees and values.", "anchors": ["libs/pricing-programs/flat-fee-lib/src/calc/price_lp_tokens_to_redeem.rs", "programs/pricing-programs/flat-fee/src/processor/price_lp_tokens_to_mint.rs", "programs/pricing-programs/no-fee-pricing-program/src/lib.rs"]}
{"id": "C26", "title": "Flat-fee configuration stays in bounds and under its manager's control", "statement": "After any history of flat-fee program instructions, every stored LST fee is within [-10000, 10000] bps, the LP withdrawal fee is at most 10000 bps, and each change was signed by the manager of that moment.", "quantifier": "every history of flat-fee instructions", "why_tests_cant": "Invariant over unbounded histories.", "anchors": ["programs/pricing-programs/flat-fee/src/processor/", "libs/pricing-programs/flat-fee-lib/src/account_resolvers/"]}
{"id": "C27", "title": "Calculators refuse to price after an unreviewed stake pool upgrade", "statement": "A stake-pool calculator answers only when the stake pool program's last upgrade slot equals the slot recorded by its manager; the recorded slot and the manager change only with the manager's signature.", "quantifier": "every history of calculator instructions and program upgrades", "why_tests_cant": "Invariant over histories of upgrades and acknowledgements.", "anchors": ["libs/sol-value-calculator-programs/generic-pool-calculator-lib/src/utils.rs", "libs/sol-value-calculator-programs/generic-pool-calculator-onchain/src/processor/"]}
{"id": "C28", "title": "Calculators refuse stale or unusable stake pools", "statement": "SPL and Lido calculators answer only when the stake pool was updated in the current epoch; Marinade only when not paused and stake withdrawal is enabled; the accounts priced are the ones of the LST asked for.", "quantifier": "every stake pool state, epoch and account list", "why_tests_cant": "All states and epochs.", "anchors": ["programs/sol-value-calculator-programs/*/src/processor/lst_sol_common.rs"]}
{"id": "C29", "title": "Account data round-trips", "statement": "Serializing PoolState, LstState or RebalanceRecord and reading it back gives the same record, the byte length is fixed (176, 80, 16), and every byte string of that length is a valid record.", "quantifier": "every record and every byte string", "why_tests_cant": "All values of all fields.", "anchors": ["generated/s_controller_interface/src/typedefs.rs", "libs/s-controller-lib/src/accounts_serde.rs", "libs/s-controller-lib/src/lib.rs"]}
{"id": "C30", "title": "List accounts behave as lists", "statement": "On the raw bytes of a list account, adding appends one element, removing index i deletes exactly the i-th and shifts the rest, reads give back the list, and byte lengths that are not a multiple of the element size are rejected.", "quantifier": "every byte content, element and index", "why_tests_cant": "All lengths and positions.", "anchors": ["programs/s-controller/src/list_account.rs", "libs/s-controller-lib/src/accounts_serde.rs: try_list"]}
{"id": "C31", "title": "Off-chain quotes equal on-chain results", "statement": "For the same pool state and calculator data, when the Jupiter quote and the on-chain instruction both succeed, the quoted in and out amounts are exactly the amounts moved on chain (swap exact in, swap exact out, add and remove liquidity).", "quantifier": "every state, mint pair and amount", "why_tests_cant": "Two independent implementations must agree on all inputs.", "anchors": ["libs/s-jup-interface/src/core/"]}
{"id": "C32", "title": "StartRebalance demands a matching later EndRebalance", "statement": "StartRebalance accepts exactly the transactions in which some later top-level instruction of this program is an EndRebalance whose destination LST account is the same mint.", "quantifier": "every transaction, position and instruction list", "why_tests_cant": "All transactions.", "anchors": ["programs/s-controller/src/processor/start_rebalance.rs: verify_has_succeeding_end_rebalance_ix"]}
{"id": "C33", "title": "No arithmetic wrap-around", "statement": "Every number the program stores or transfers is the exact mathematical result and fits its machine type; overflows abort the instruction.", "quantifier": "every history of transactions", "why_tests_cant": "Overflow corner cases on all paths.", "anchors": ["libs/s-controller-lib/src/calc.rs", "libs/s-controller-lib/src/state.rs", "programs/s-controller/src/processor/"]}
{"id": "C34", "title": "Input-disabled LSTs can leave but not enter", "statement": "While an LST's input is disabled, it cannot be a swap source, a deposit, or a rebalance destination, while redemption into it and swaps out to it are unaffected by the flag; the flag changes only by the admin.", "quantifier": "every state, list and instruction", "why_tests_cant": "All paths by which an LST can enter.", "anchors": ["programs/s-controller/src/verify.rs: verify_lst_input_not_disabled", "programs/s-controller/src/processor/disable_lst_input.rs", "programs/s-controller/src/processor/enable_lst_input.rs"]}
{"id": "C35", "title": "Conversions and prices are monotone", "statement": "Larger LST amounts never have a smaller SOL value, larger SOL values never convert to less LST, and larger inputs never get a lower price, LP mint or redemption.", "quantifier": "every rate, fee and pair of amounts", "why_tests_cant": "All pairs.", "anchors": ["libs/sol-value-calculator-programs/*-calculator-lib/src/calc.rs", "libs/pricing-programs/flat-fee-lib/src/calc/", "libs/s-controller-lib/src/calc.rs"]}
{"id": "C36", "title": "Splitting a deposit or a trade gains nothing", "statement": "For proportional calculators and flat fees, the outputs of two smaller exact-in conversions never add up to more than the output of the single combined conversion.", "quantifier": "every amounts, rates and fees", "why_tests_cant": "Rounding over all values.", "anchors": ["libs/pricing-programs/flat-fee-lib/src/calc/price_exact_in.rs", "libs/sol-value-calculator-programs/*-calculator-lib/src/calc.rs"]}
{"id": "C37", "title": "Trading there and back is never profitable", "statement": "With non-negative flat fees, swapping an amount of one LST to another and swapping the proceeds back returns at most the original amount.", "quantifier": "every pair of calculators, fees and amounts", "why_tests_cant": "Rounding over all values.", "anchors": ["programs/s-controller/src/processor/swap_exact_in.rs", "libs/pricing-programs/flat-fee-lib/src/calc/price_exact_in.rs"]}
{"id": "C38", "title": "Instruction data is unambiguous", "statement": "Each instruction serializes to bytes that decode to the same instruction and arguments; unknown discriminators and truncated data are rejected without effect; decoded numeric arguments are within their types.", "quantifier": "every instruction, argument and byte string", "why_tests_cant": "All byte strings.", "anchors": ["generated/s_controller_interface/src/instructions.rs: SControllerProgramIx"]}
{"id": "C39", "title": "LP tokens are minted and burned only for deposits and withdrawals", "statement": "The LP mint's supply increases only in AddLiquidity, by exactly the amount credited to the depositor, and the controller decreases it only in RemoveLiquidity, by exactly the amount debited from the redeemer; the pool stays the mint's only authority.", "quantifier": "every history of transactions", "why_tests_cant": "Every instruction on every path.", "anchors": ["programs/s-controller/src/processor/add_liquidity.rs", "programs/s-controller/src/processor/remove_liquidity.rs", "programs/s-controller/src/processor/initialize.rs"]}
{"id": "C40", "title": "The pool is initialized once, by the fixed authority", "statement": "Initialize succeeds only when no pool exists, signed by the fixed initial authority and with an LP mint of zero supply; it makes the pool the mint and freeze authority and stores the documented defaults; after that it always fails.", "quantifier": "every history of transactions", "why_tests_cant": "Histories of any length.", "anchors": ["programs/s-controller/src/processor/initialize.rs"]}
{"id": "C41", "title": "Syncing and redeeming cannot be blocked by arithmetic", "statement": "In every reachable state syncing fails only if the new total overflows 64 bits, and computing the value of any LP amount up to the supply never fails.", "quantifier": "every reachable state and amount", "why_tests_cant": "Liveness over all reachable states.", "anchors": ["libs/s-controller-lib/src/state.rs", "libs/s-controller-lib/src/calc.rs: calc_lp_tokens_sol_value"]}
{"id": "C42", "title": "Client-built account lists reach the intended programs", "statement": "The accounts appended by the client library for calculators and pricing are split by the program into exactly the intended program and accounts.", "quantifier": "every account list of at most 255 accounts per program", "why_tests_cant": "All lengths of the variable account lists.", "anchors": ["libs/s-controller-lib/src/instructions/utils.rs", "programs/s-controller/src/verify.rs", "programs/s-controller/src/cpi/"]}
{"id": "C43", "title": "Client index lookup matches on-chain verification", "statement": "The index found by mint on the client is accepted on chain for that mint and identifies the same entry; on-chain index lookup accepts only the entry whose mint matches.", "quantifier": "every list and mint", "why_tests_cant": "All lists.", "anchors": ["libs/s-controller-lib/src/lst_state_list.rs", "libs/s-controller-lib/src/disable_pool_authority_list.rs"]}
{"id": "C44", "title": "Tokens are conserved", "statement": "Every successful instruction other than LP mint and burn leaves, for each LST, the combined balance of the accounts involved unchanged: what the user gives or gets is what the pool and fee accumulator get or give.", "quantifier": "every instruction, state and account aliasing", "why_tests_cant": "All aliasing patterns of accounts.", "anchors": ["programs/s-controller/src/processor/"]}
{"id": "C45", "title": "The off-chain cache stays aligned with the LST list", "statement": "After any sequence of account updates, the Jupiter cache holds one slot per listed LST and every filled slot belongs to that LST's mint and calculator program.", "quantifier": "every sequence of updates and list changes", "why_tests_cant": "Unbounded update sequences.", "anchors": ["libs/s-jup-interface/src/update.rs: update_lst_state_list", "libs/s-jup-interface/src/init.rs"]}
{"id": "C46", "title": "Listed LSTs always have their pool accounts", "statement": "After any history, each listed LST has a reserves account and a fee accumulator account of that mint, controlled by the pool and by the fee authority respectively.", "quantifier": "every history of transactions", "why_tests_cant": "Invariant over unbounded histories.", "anchors": ["programs/s-controller/src/processor/add_lst.rs", "programs/s-controller/src/processor/remove_lst.rs"]}
{"id": "C47", "title": "User instructions touch no configuration", "statement": "Sync, swap and liquidity instructions change nothing in the pool but the recorded SOL values: authorities, fees, flags, pricing program, LST set, calculators and disable authorities stay the same.", "quantifier": "every state, account list and argument", "why_tests_cant": "All paths.", "anchors": ["programs/s-controller/src/processor/"]}
{"id": "C48", "title": "Disabling and enabling the pool", "statement": "DisablePool succeeds only for the admin or a listed disable authority and sets only the disabled flag; EnablePool succeeds only for the admin on a disabled pool and clears only that flag; nothing else changes the flag.", "quantifier": "every history of transactions", "why_tests_cant": "Histories of any length.", "anchors": ["programs/s-controller/src/processor/disable_pool.rs", "programs/s-controller/src/processor/enable_pool.rs"]}
{"id": "C49", "title": "A cached pricing program is the pool's", "statement": "In the Jupiter integration, however the cache was created and whatever accounts later updates delivered, a pricing program is cached only while the cached pool state is readable and names that program; so no quote is priced by a program other than the one of the cached pool state.", "quantifier": "every constructor, every sequence of the update functions with arbitrary fetched accounts", "why_tests_cant": "Update sequences of any length with any missing or malformed accounts.", "anchors": ["libs/s-jup-interface/src/update.rs: update_pricing_prog, update_pool_state", "libs/s-jup-interface/src/init.rs"]}
{"id": "C50", "title": "Both descriptions of a swap agree", "statement": "Whatever the cache holds, the instruction built for a trade and the (swap description, account metas) pair handed to the aggregator describe the same call: one exists exactly when the other does, the metas are the program id followed by the instruction's accounts, and the counts and indices are the instruction's arguments.", "quantifier": "every reachable cache, every trade request", "why_tests_cant": "All caches and requests.", "anchors": ["libs/s-jup-interface/src/core/mod.rs: get_swap_and_account_metas_full, swap_ix", "libs/s-jup-interface/src/core/swap_exact_out.rs", "libs/s-jup-interface/src/core/swap_exact_in.rs"]}
{"id": "C51", "title": "LP tokens do not lose value while LSTs do not", "statement": "Over any history of committed transactions during which the calculators' valuation of every amount of every LST never falls, the recorded SOL value of the pool per LP token never falls, apart from the stated rounding losses of deposits and redemptions of LSTs with withdrawal fees; swaps, syncs, rebalances, administration and foreign transactions lose nothing. The pool stays backed: no LST is recorded at more than its reserves are worth.", "quantifier": "every reachable backed state, every history of transactions (mixed instructions, foreign actions, failing transactions), every sequence of rising valuations, arbitrary pricing answers", "why_tests_cant": "Induction over unbounded histories, including states in the middle of a rebalance.", "anchors": ["programs/s-controller/src/processor: sync_sol_value.rs, swap_exact_in.rs, swap_exact_out.rs, add_liquidity.rs, remove_liquidity.rs, start_rebalance.rs, end_rebalance.rs", "libs/s-controller-lib/src/calc.rs"]}
{"id": "C52", "title": "No profit from trading with the pool", "statement": "Over any history of swaps, deposits, redemptions and syncs, while no LST loses value, the total worth of all user accounts involved (LSTs at any rate not below the calculators', LP tokens at the pool's own price) grows by at most the value the pool had not yet recorded at the start - at most one lamport per LST when the pool is synced - plus the stated rounding losses of LP tokens held by others. Plain transfers of tokens among the accounts involved, gifts to the pool's reserves included, do not change this: nobody gains by donating to the pool.", "quantifier": "every reachable backed state, every history of user instructions of any length, order and signers, every pricing program, every rising sequence of valuations", "why_tests_cant": "Any combination of any number of instructions; arbitrary pricing answers.", "anchors": ["programs/s-controller/src/processor: sync_sol_value.rs, swap_exact_in.rs, swap_exact_out.rs, add_liquidity.rs, remove_liquidity.rs", "libs/s-controller-lib/src/calc.rs"]}
{"id": "C53", "title": "Refreshing the off-chain cache makes it show the chain", "statement": "However an off-chain pool was created and updated, as long as every update was given accounts of the chain as they were at some time, two rounds of fetching exactly the accounts it asks for and updating it, while the chain stands still, leave it showing the chain: pool state, LST list, LP supply, reserves, calculators, pricing fees. It then also holds everything its quotes need. Required: the second update reports success (the first may fail), no fee account it holds was closed, and the built-in LST list is right. With the quote theorem, its quotes are then the amounts moved on chain.", "quantifier": "every cache reachable by any sequence of updates with any old snapshots, every reachable chain state, every pair of answers to the cache's own requests (with or without further accounts)", "why_tests_cant": "The cache's request list depends on what it already holds, over any history of partial or failing updates and list changes.", "anchors": ["libs/s-jup-interface/src/update.rs: get_accounts_to_update_full, update_full, update_lst_data_list, update_lst_state_list, update_pool_state, update_pricing_prog, update_lp_token_supply", "libs/aggregate/s-sol-val-calc-prog-aggregate", "libs/aggregate/s-pricing-prog-aggregate/src/flat_fee.rs: get_accounts_to_update, update"]}
{"id": "C54", "title": "A quoted trade executes", "statement": "If an off-chain pool shows the chain and quotes a trade - a swap by input or by output amount, a deposit or a redemption - and builds the instruction for it with the quoted amounts as the limit, then, on that chain state, the controller accepts the instruction and the trade goes through: from a user who holds the tokens, while the pool is active, and the calculator and pricing programs answer. A deposit or swap must also leave totals that fit in 64 bits, a deposit or redemption must pay out a positive amount, and a swap must not lower the pool's value, which the library does not check; an exact-in quote never does so when the two LSTs have no withdrawal fee, or when the part of the fee left in the pool covers the rounding of the withdrawal fees.", "quantifier": "every reachable chain state, every cache that shows it, every quote, amount, pair of mints and account list as seen by the program", "why_tests_cant": "Success, not just the absence of wrong results, must hold for every amount and every pool state; every one of the program's checks must follow from what the library checks.", "anchors": ["libs/s-jup-interface/src/core: add_liquidity.rs, remove_liquidity.rs, swap_exact_in.rs, swap_exact_out.rs", "programs/s-controller/src/processor: swap_exact_in.rs, swap_exact_out.rs, add_liquidity.rs, remove_liquidity.rs"]}
{"id": "C55", "title": "Traded LSTs are recorded at their value", "statement": "After a successful swap, deposit, redemption, sync, change of calculator, or start or end of a rebalance, the recorded SOL value of every LST the instruction is about is what that LST's calculator program, called during the instruction, answered (lower bound) for exactly the amount the pool's reserves hold at the end.", "quantifier": "every reachable state, instruction, account list and amounts; any calculator and pricing programs that move no tokens", "why_tests_cant": "For every sequence of token movements inside the instruction, including accounts that coincide (same LST on both sides, withdrawing into the pool's own reserves).", "anchors": ["programs/s-controller/src/processor: sync_sol_value.rs, swap_exact_in.rs, swap_exact_out.rs, add_liquidity.rs, remove_liquidity.rs, set_sol_value_calculator.rs, start_rebalance.rs, end_rebalance.rs"]}
{"id": "C56", "title": "A rebalance planned by the command-line tool is accepted", "statement": "When `rebal-sol`, `rebal-stake` or `rebal-withdraw-sol` decides on a subsidy and builds StartRebalance and EndRebalance from accounts that show the chain, the transaction it sends succeeds, provided that between the two instructions the quoted amount plus the subsidy reaches the pool's reserves of the destination LST. The only signer the controller asks for is the rebalance authority the command was given, and the subsidy never exceeds what its payer holds.", "quantifier": "every reachable state, pool, pair of LSTs, stake pool kind, rate, amount, quote and payer balance; any other instructions around and between", "why_tests_cant": "The subsidy is computed by inverting rounded conversions; that it always covers the rounding of every calculator at every reserve balance is a statement about all amounts and rates.", "anchors": ["cli/s-controller/src/subcmd: rebal_sol.rs, rebal_stake.rs, rebal_withdraw_sol.rs", "cli/s-controller/src/common.rs (sol_value_calculator_accounts_of_sanctum_lst)", "libs/s-jup-interface/src/core/common.rs (apply_sync_sol_value)", "programs/s-controller/src/processor: start_rebalance.rs, end_rebalance.rs"]}
{"id": "C57", "title": "What sync-all leaves behind", "statement": "On an open pool `sync-all --force` succeeds and leaves every LST of the pool that is on the Sanctum list recorded at the value its calculator gives for the pool's reserves, the total being the sum of the records; nothing else of the pool and no token balance changes. Without `--force` it does the same if none of these LSTs has lost value, and always succeeds with some of these LSTs recorded at their value and the others as they were, total and records agreeing; with at most four such LSTs the total always comes out as with `--force`.", "quantifier": "every reachable state, LST list (any length, any overlap with the Sanctum list), calculator rates and reserve balances", "why_tests_cant": "The command batches the list by four and skips batches by comparing simulated pool states; what it leaves behind depends on every combination of value changes across batches.", "anchors": ["cli/s-controller/src/subcmd/sync_all.rs", "cli/s-controller/src/rpc.rs (does_tx_modify_pool_state)", "cli/s-controller/src/common.rs", "programs/s-controller/src/processor/sync_sol_value.rs"]}
{"id": "C58", "title": "The flat-fee manager's commands do what they say", "statement": "Each command of the flat-fee manager (`set-lst-fee`, `add-lst`, `remove-lst`, `set-manager`, `set-lp-withdrawal-fee`, `initialize`) goes on only when given the manager's key; the transaction it builds succeeds exactly under the documented conditions (fees within \u00b1100%, the LST having or not having a fee account, a real mint, ...) and then makes exactly the named change. `batch-set-fees` produces a transaction only the manager has to sign, writing only to fee accounts whose fees differ; it succeeds exactly if the fees are within \u00b1100%, and then every fee account has the given fees and nothing else has changed.", "quantifier": "every history of the program, any number of fee accounts in any order, all 16-bit fees, all keys; account flags as raised by other instructions", "why_tests_cant": "The batch command's effect is a statement about any number of fee accounts in any order of the RPC answer, from any configuration the program can reach.", "anchors": ["cli/pricing-programs/flat-fee/src/subcmd", "libs/pricing-programs/flat-fee-lib/src/account_resolvers", "programs/pricing-programs/flat-fee/src/processor"]}
{"id": "C59", "title": "After a stake pool upgrade the calculator's manager can restore pricing, and queries print what the calculator answers", "statement": "`update-last-upgrade-slot` goes on only when given the manager's key; its instruction succeeds exactly if the given program is the calculator's stake pool program and the derived account is where the loader keeps its code, and records exactly the slot of that code. After it, every pool in order is priced again. `set-manager` and `init` do exactly what they say. `lst-to-sol` and `sol-to-lst` print a range exactly if the pool is in order and its program's code is the acknowledged one, and it is the calculator's range.", "quantifier": "every calculator state, chain contents (all bytes), pool, amount and key", "why_tests_cant": "It ranges over all account bytes and upgrade slots; the tests use one fixture per pool.", "anchors": ["cli/generic-pool-calculator/src/subcmd", "libs/sol-value-calculator-programs/generic-pool-calculator-lib/src", "programs/sol-value-calculator-programs"]}
{"id": "C60", "title": "The administrative commands send exactly the instruction they promise, and refuse a key that cannot authorise it", "statement": "Each administrative command of the controller's tool (init, set-admin, set-protocol-fee, set-protocol-fee-beneficiary, set-pricing-prog, set-rebalance-auth, enable-pool, disable-pool, add/remove-disable-auth, enable/disable-lst-input, add-lst, remove-lst, set-sol-value-calculator, withdraw-protocol-fees) refuses keys that could not authorise it (remove-lst excepted, which derives the admin's key and leaves the refusal to signing). The instruction it sends is signed for by the given keys alone, is accepted by the controller in exactly the stated circumstances, and then changes exactly the named field, list entry or balance, and nothing else. withdraw-protocol-fees withdraws all that has accumulated unless told otherwise, first creating the beneficiary's associated token account if it is the missing target.", "quantifier": "every state of the pool (for commands on listed LSTs: every reachable one), keys, mints, calculator suffix, amount, and whatever other programs do", "why_tests_cant": "It ranges over all pool states, lists and keys; the tool's commands have no tests.", "anchors": ["cli/s-controller/src/subcmd", "libs/s-controller-lib/src/accounts_resolvers", "generated/s_controller_interface/src/instructions.rs"]}
{"id": "C61", "title": "A listed LST's reserves and fee accumulator are the associated token accounts anyone derives from its mint", "statement": "In every reachable state, for every listed LST, the associated token account of the pool state (and of the protocol fee PDA) derived from the mint and its token program exists, belongs to that PDA, holds that mint, and is the very account that every instruction computes from the bump stored in the list.", "quantifier": "every reachable state and listed LST", "why_tests_cant": "It ranges over all histories; off-chain clients rely on it when they derive the addresses instead of reading the stored bumps.", "anchors": ["programs/s-controller/src/processor/add_lst.rs", "libs/s-controller-lib/src/pda.rs"]}
{"id": "C62", "title": "Lamports: each instruction takes exactly the rent it needs from the payer, returns exactly the excess, and the program's accounts stay rent exempt", "statement": "For every accepted instruction: AddLst, AddDisablePoolAuthority and Initialize raise the accounts they create or enlarge to the rent minimum of their new size, paid by the payer account alone and only the missing part; RemoveLst and RemoveDisablePoolAuthority return to the refund account everything the closed token accounts held and what the shortened list holds above its new rent minimum (all of it if the list is now empty); StartRebalance lends one lamport of the pool state to the record and EndRebalance returns all the record holds; no other instruction moves lamports. No instruction creates or destroys lamports. In every reachable state the pool state and both lists hold at least the rent minimum of their size (within a rebalancing transaction the pool state may be one lamport short).", "quantifier": "every world, account list, instruction, rent function and history of transactions; every lamport distribution", "why_tests_cant": "It ranges over every list length, every pre-existing balance of the accounts to be created, and every history.", "anchors": ["programs/s-controller/src/list_account.rs", "programs/s-controller/src/processor/initialize.rs", "programs/s-controller/src/processor/add_lst.rs", "programs/s-controller/src/processor/remove_lst.rs", "programs/s-controller/src/processor/add_disable_pool_authority.rs", "programs/s-controller/src/processor/remove_disable_pool_authority.rs", "programs/s-controller/src/processor/start_rebalance.rs", "programs/s-controller/src/processor/end_rebalance.rs"]}
{"id": "C63", "title": "No account is changed unless it was passed as writable", "statement": "An accepted instruction changes the pool state, the LST list, the disable-authority list, the rebalance record, a token account, a mint or an account's lamports only if that account was passed to the instruction flagged writable; an account nobody passed as writable is untouched.", "quantifier": "every world, every instruction and arguments, every account list and flags, every behaviour of the called programs that leaves the token ledger alone", "why_tests_cant": "Ranges over all account lists, flags and states; a test sees one account list and compares few accounts.", "anchors": ["generated/s_controller_interface/src/instructions.rs (*_verify_writable_privileges)", "programs/s-controller/src/processor (all instructions)"]}
{"id": "C64", "title": "Nobody's tokens are taken without their signature, nor more than they offered", "statement": "Take any token account not owned by the pool's own two addresses. After any accepted instruction it still exists with the same owner and mint; its balance fell by at most the amount the instruction names (the input amount of SwapExactIn and AddLiquidity, the max amount of SwapExactOut, the LP amount of RemoveLiquidity; nothing for every other instruction), and if it fell at all then the account's owner signed the instruction.", "quantifier": "every world, instruction, arguments, account list and token account; every behaviour of the called programs that leaves the token ledger alone", "why_tests_cant": "Quantifies over all accounts of all bystanders and all account lists, including aliased ones; a test checks the accounts of one user.", "anchors": ["programs/s-controller/src/processor/swap_exact_in.rs", "programs/s-controller/src/processor/swap_exact_out.rs", "programs/s-controller/src/processor/add_liquidity.rs", "programs/s-controller/src/processor/remove_liquidity.rs", "programs/s-controller/src/processor/remove_lst.rs", "programs/s-controller/src/processor/withdraw_protocol_fees.rs", "programs/s-controller/src/processor/start_rebalance.rs"]}
{"id": "C65", "title": "The programs keep their guarantees when deployed together", "statement": "Deploy the controller, the flat-fee and no-fee pricing programs and the stake pool calculators together, and let anybody run transactions that mix their instructions with those of other programs, the controller asking the deployed programs for prices and values. Then the controller's accounts and events are those of some history of the controller on its own, so that everything proved of every such history holds; the flat-fee program's accounts are exactly what its own successful instructions, in order, leave behind; the same holds of each calculator's account; and a failed transaction changes none of them.", "quantifier": "every deployment, initial token ledger, history of mixed transactions (top-level and by CPI)", "why_tests_cant": "Interleavings of instructions of eight programs are unbounded.", "anchors": ["programs/s-controller/src/cpi/sol_value_calculator.rs: invoke_lst_to_sol, invoke_sol_to_lst", "programs/s-controller/src/cpi/pricing_program.rs: invoke_price_exact_in", "programs/pricing-programs/flat-fee", "programs/sol-value-calculator-programs"]}
{"id": "C66", "title": "No LST is priced from a stale stake pool or one whose program was upgraded unreviewed", "statement": "In any history of the deployed programs, whenever an instruction of the pool that values a listed LST served by a stake pool calculator succeeds, the stake pool it was valued by is one of that LST, updated in the current epoch (or, for Marinade, not paused and open for withdrawals), and the last upgrade of the stake pool program was in slot 0 or in a slot that the calculator's manager of the time acknowledged in an earlier successful transaction.", "quantifier": "every history, instruction, LST and stake pool", "why_tests_cant": "Histories of upgrades, acknowledgements and trades are unbounded.", "anchors": ["programs/sol-value-calculator-programs/spl-calculator/src/processor/lst_sol_common.rs", "libs/sol-value-calculator-programs/generic-pool-calculator-onchain/src/processor/update_last_upgrade_slot.rs", "programs/s-controller/src/cpi/sol_value_calculator.rs"]}
{"id": "C67", "title": "Trades pay exactly what the stake pools and the fees set say", "statement": "In any history of the deployed programs with the flat-fee pricing program: a SwapExactIn of amount x pays out the lower bound of the destination LST for floor(v\u00b7(10000\u2212fee)/10000) lamports, v the lower bound of the source LST's value of x, both by the stake pools' figures on chain at that moment, fee the sum of the input fee of the one and the output fee of the other last set by the flat-fee manager; a SwapExactOut takes in the upper bound of the source LST for ceil(10000\u00b7(v+1)/(10000\u2212fee)) lamports, v the upper bound of the destination's value; a deposit mints LP tokens for its full value; a redemption pays the LST for its value less the withdrawal fee last set, rounded up.", "quantifier": "every history, trade, amounts, fees and stake pool figures", "why_tests_cant": "The composition of calculators, pricing and controller over all histories and amounts.", "anchors": ["programs/s-controller/src/processor/swap_exact_in.rs", "programs/s-controller/src/processor/swap_exact_out.rs", "programs/s-controller/src/processor/add_liquidity.rs", "programs/s-controller/src/processor/remove_liquidity.rs", "libs/pricing-programs/flat-fee-lib/src/calc/mod.rs"]}
{"id": "C68", "title": "Deployed together, LP tokens keep their value and nobody profits from trading", "statement": "In any history of the deployed programs during which no stake pool loses value, with every listed LST served by its stake pool's calculator: the recorded value of an LP token never falls but for the rounding of deposits and redemptions of LSTs whose pool charges withdrawal fees, whatever anybody (fee manager, admin, rebalancer, traders) does; and the wealth of any group of trading users, LSTs at rates not below the stake pools', grows by no more than the value in the reserves the pool had not recorded at the start plus those rounding losses. Plain transfers of tokens among the accounts involved, gifts to the pool's reserves included, do not change this: nobody gains by donating to the pool.", "quantifier": "every history, valuation path, group of users", "why_tests_cant": "Unbounded histories of mixed transactions.", "anchors": ["programs/s-controller/src/processor", "libs/s-controller-lib/src/calc.rs", "libs/pricing-programs/flat-fee-lib/src/calc/mod.rs"]}
{"id": "C69", "title": "Rebalancing and fee withdrawals move exactly what they name, within the bounds given", "statement": "A successful StartRebalance moves exactly the named amount from the pool's reserves of the source LST to the account named and moves nothing else; the source reserves held at least min_starting_src_lst and the destination reserves at most max_starting_dst_lst; the record holds the pool's total with both LSTs valued before the movement. A successful EndRebalance moves no token, revalues the destination, and clears the record and the flag. A successful WithdrawProtocolFees moves exactly the named amount from the fee accumulator of the receiving account's mint to that account for the beneficiary, while the pool is active, and changes nothing else.", "quantifier": "every world, accounts, arguments and calculators that do not move tokens while asked", "why_tests_cant": "All states and arguments.", "anchors": ["programs/s-controller/src/processor/start_rebalance.rs: process_start_rebalance", "programs/s-controller/src/processor/end_rebalance.rs: process_end_rebalance", "programs/s-controller/src/processor/withdraw_protocol_fees.rs: process_withdraw_protocol_fees"]}
{"id": "C70", "title": "Liquidity providers can leave", "statement": "While the pool is neither disabled nor rebalancing and the calculator and pricing programs answer, a redemption of LP tokens is accepted whenever the LP tokens' share of the pool is worth no more than the reserves of the chosen LST (and at least one base unit of it): the protocol fee paid from the same reserves always fits, and disabled LST inputs do not matter. In a synced pool of n LSTs a holder of at most an n-th of all LP tokens can always redeem them in one instruction for one of the LSTs.", "quantifier": "every reachable state, every calculator kind and stake pool, every price up to the fair value, every holder, amount and LST", "why_tests_cant": "A liveness claim over all states, rates and roundings; tests show single redemptions.", "anchors": ["programs/s-controller/src/processor/remove_liquidity.rs", "libs/s-controller-lib/src/calc.rs", "libs/s-controller-lib/src/instructions/remove_liquidity.rs"]}
{"id": "C71", "title": "An LST is valued at what its stake pool pays out", "statement": "Each calculator values an LST amount at exactly what the stake pool's own withdrawal rule pays for it (Lido share; SPL share after the withdrawal fee in pool tokens rounded up; Marinade share of staked, cooling-down and reserve lamports without outstanding tickets, less the fee in lamports rounded down; wrapped SOL one to one), and the LST range it returns for a SOL value is tight to a few base units: that much more than the minimum is worth the value and that much less than the maximum is not worth more.", "quantifier": "every stake pool state with non-zero supply and balance and a fee below 100%, every amount and value", "why_tests_cant": "All pool states and amounts; an omitted component of the backing or a loose range only shows for some pools.", "anchors": ["libs/sol-value-calculator-programs/lido-calculator-lib/src/calc.rs", "libs/sol-value-calculator-programs/spl-calculator-lib/src/calc.rs", "libs/sol-value-calculator-programs/marinade-calculator-lib/src/calc.rs", "libs/sol-value-calculator-programs/wsol-calculator-lib/src/lib.rs"]}
{"id": "C72", "title": "The sync command records the LST it names, forced or not", "statement": "If the command-line tool's `sync` ends well for an LST named by mint or by symbol, then that LST is recorded at the value its calculator program answers for all the tokens in the pool's reserves of it, the pool's total is the sum of the records and nothing else of the pool has changed. Whether or not --force is given makes no difference to the records left (the transaction is left out only when it would change nothing). For every LST of an open pool whose calculator answers, the command does end well; a symbol names an LST of the list with that symbol.", "quantifier": "every reachable pool state, every LST argument and account suffix, every behaviour of the calculator program, with and without --force", "why_tests_cant": "The command's skip depends on comparing the simulated pool state; tests cannot cover all records, values and replies (the repository notes that the simulation path is untested).", "anchors": ["cli/s-controller/src/subcmd/sync.rs SyncArgs::run", "cli/s-controller/src/lst_arg.rs LstArg", "cli/s-controller/src/rpc.rs does_tx_modify_pool_state"]}
{"id": "C73", "title": "The view command shows the pool as it is", "statement": "Whenever the pool is initialised and the Sanctum list has the right token programs, the command-line tool's `view` succeeds and shows the LP token supply, the pool state and, for each listed LST in order, its record, whether it is input-disabled, and the balances of the pool's and the protocol fee PDA's associated token accounts for its mint; the values shown add up to the total shown.", "quantifier": "every reachable pool state with an initialised pool, every Sanctum list with correct token programs", "why_tests_cant": "It must hold for every history of the pool: any set of LSTs, token programs, bumps and balances.", "anchors": ["cli/s-controller/src/subcmd/view.rs ViewArgs::run", "libs/s-controller-lib/src/pda.rs create_pool_reserves_address_with_pool_state_id"]}
{"id": "C74", "title": "Trades are settled at what the stake pools pay out", "statement": "In the deployed system (controller, flat-fee pricing program, the repository's calculators), a SwapExactIn pays LSTs for which their stake pool would pay out at most, and to within the conversion's slack of base units exactly, the lamports the input's stake pool pays out for the amount swapped in, less the sum of the two flat fees; a SwapExactOut takes LSTs worth at least, and to within the slack exactly, the output's payout plus one lamport marked up by the fees; a deposit mints LP tokens for exactly the deposit's payout with no fee; a redemption pays its share of the total less the withdrawal fee, to within the slack.", "quantifier": "every history of the system, every trade in it between LSTs served by the repository's calculators, every state of the stake pools with tokens and lamports", "why_tests_cant": "Ranges over all histories, amounts, fees and stake pool figures; the rounding of five chained conversions must err on the right side each time.", "anchors": ["programs/s-controller/src/processor/swap_exact_in.rs", "programs/s-controller/src/processor/swap_exact_out.rs", "programs/s-controller/src/processor/add_liquidity.rs", "programs/s-controller/src/processor/remove_liquidity.rs", "libs/sol-value-calculator-programs", "libs/pricing-programs/flat-fee-lib/src/calc"]}
{"id": "C75", "title": "A quote's figures add up", "statement": "In every quote the Jupiter library returns, the lamports the stake pools pay out for what is given equal the fee shown plus the lamports for what is received: the fee percentage is the exact share of the difference in the value before fees, the fee amount is the amount of LST (of the mint shown) that is worth the difference to within the conversion's slack, and the amounts in and out are worth the value before and after fees, to within the slack, rounded in the pool's favour. A deposit shows no fee at all.", "quantifier": "every state of the library's cache for which a quote succeeds, every amount, fee and stake pool with tokens and lamports", "why_tests_cant": "Quantifies over all amounts, fees and stake pool figures.", "anchors": ["libs/s-jup-interface/src/core/common.rs calc_quote_fees", "libs/s-jup-interface/src/core/swap_exact_in.rs quote_swap_exact_in", "libs/s-jup-interface/src/core/swap_exact_out.rs quote_swap_exact_out", "libs/s-jup-interface/src/core/add_liquidity.rs quote_add_liquidity", "libs/s-jup-interface/src/core/remove_liquidity.rs quote_remove_liquidity"]}
{"id": "C76", "title": "The flat-fee tool's reading commands show what the program does", "statement": "The command-line tool's price-exact-in, price-exact-out, price-lp-tokens-to-mint and price-lp-tokens-to-redeem print exactly the price the program charges: they succeed exactly when the program would (both LSTs have fees totalling at most 100%, resp. below; the program is initialised), and print the value less the two fees rounded down, the value plus one lamport grossed up by the fees rounded up, the value itself, and the value less the withdrawal fee rounded up. view-lst shows the fees set for the LST; view shows the state, every fee account once and nothing else, with the right symbol, and their number; create-lut leaves a lookup table holding every account of the program, adding each missing one once, 1 to 27 per transaction.", "quantifier": "every history of the flat-fee program, every amount and value in u64, every LST list, every existing lookup table with room", "why_tests_cant": "Must hold for every fee configuration and any number of fee accounts.", "anchors": ["cli/pricing-programs/flat-fee/src/subcmd/price_exact_in.rs", "cli/pricing-programs/flat-fee/src/subcmd/price_exact_out.rs", "cli/pricing-programs/flat-fee/src/subcmd/price_lp_tokens_to_redeem.rs", "cli/pricing-programs/flat-fee/src/subcmd/common.rs handle_pricing_ix", "cli/pricing-programs/flat-fee/src/subcmd/view.rs", "cli/pricing-programs/flat-fee/src/subcmd/create_lut.rs"]}
{"id": "C77", "title": "Slippage limits only filter", "statement": "Suppose a swap, deposit or redemption goes through with some slippage limit. Then with any other limit, everything else being equal, either the limit is met by the amount paid or taken and the transaction has the very same result, or it is not met and the transaction fails, and fails with SlippageToleranceExceeded. The limit never changes an amount. (A maximum input of zero in an exact-out swap is refused like a zero amount.)", "quantifier": "every pool state, instruction, pair of limits and quiet environment", "why_tests_cant": "The result must be the same for every pair of limits, state and amount.", "anchors": ["programs/s-controller/src/processor/swap_exact_in.rs", "programs/s-controller/src/processor/swap_exact_out.rs", "programs/s-controller/src/processor/add_liquidity.rs", "programs/s-controller/src/processor/remove_liquidity.rs"]}
{"id": "C78", "title": "Swaps have no price impact", "statement": "Swaps are priced by the calculators and the pricing program alone: two swaps of the same amount between the same two LSTs, by anyone, in any two states of the pool, pay (exact in) or take (exact out) the same amount, as long as calculators and pricing program answer the same, and cost the same protocol fee if the rate is the same. In particular nobody can make another's swap worse, or better, by trading before it.", "quantifier": "every pair of pool states with the same two LSTs and calculators, every amount; every sequence of user transactions between", "why_tests_cant": "Independence of reserves, totals and supply must hold for all states and all interleavings.", "anchors": ["programs/s-controller/src/processor/swap_exact_in.rs", "programs/s-controller/src/processor/swap_exact_out.rs"]}
{"id": "C79", "title": "Waiting never makes a redemption worse", "statement": "Suppose the LST redeemed for is recorded at its value. Whatever transactions come before a redemption of LP tokens - anyone's trades, deposits, redemptions, rebalances, administration - while LSTs keep their value, deposits and redemptions cause no rounding loss, and the flat-fee program prices with unchanged fees, the redemption pays at least as much as it would have paid at once.", "quantifier": "every reachable state, every history of transactions in between, every amount and LST", "why_tests_cant": "The claim compares a redemption across all histories of others' transactions.", "anchors": ["programs/s-controller/src/processor/swap_exact_in.rs", "programs/s-controller/src/processor/swap_exact_out.rs", "programs/s-controller/src/processor/add_liquidity.rs", "programs/s-controller/src/processor/remove_liquidity.rs"]}
{"id": "C80", "title": "Off-chain quotes only from stake pools in order", "statement": "The library gives a quote only if, for each LST it is about, it holds figures of the LST's stake pool that may be used this epoch: Lido's and SPL pools updated in the epoch, Marinade's not paused and with stake withdrawals enabled. After a refresh these are the figures on the chain, so a quote is only given if the stake pools are in order on the chain.", "quantifier": "every cache, quote request and epoch; every chain state the cache was refreshed from", "why_tests_cant": "Must hold for every kind of stake pool, both sides of the trade and every mode of quote.", "anchors": ["libs/s-jup-interface/src/core/", "libs/aggregate/s-sol-val-calc-prog-aggregate/src/"]}
{"id": "C81", "title": "The rebalancing tool's subsidy is what is missing, and no more", "statement": "When a rebalancing command (`rebal-sol`, `rebal-stake`, `rebal-withdraw-sol`) asks its operator for a subsidy, the subsidy together with what the stake pool delivers is worth at least what the controller will demand of the reserves, and it is not wasteful: less the rounding slack of the destination's stake pool (nothing at all for `rebal-withdraw-sol`), the same amount is not worth more than demanded. Without a shortfall no subsidy is asked for.", "quantifier": "all cached pool states, stake pool figures, amounts, quotes of the stake pools and payers for which the command builds its instructions", "why_tests_cant": "The amount is the result of inverting a rounded conversion (and of a search loop); whether it is enough and tight depends on every combination of stake pool figures, balances and amounts.", "anchors": ["cli/s-controller/src/subcmd/rebal_sol.rs: RebalSolArgs::run", "cli/s-controller/src/subcmd/rebal_stake.rs: RebalStakeArgs::run", "cli/s-controller/src/subcmd/rebal_withdraw_sol.rs: RebalWithdrawSolArgs::run"]}
{"id": "C82", "title": "Withdrawing SOL through the stake pool needs no real subsidy", "statement": "If an SPL stake pool's fee on withdrawing SOL is no higher than its fee on withdrawing stake, `rebal-withdraw-sol` asks for at most dust: what one base unit of the LST is worth plus two lamports, and at most one lamport for a pool without fees. The command never counts on more lamports than the stake pool's reserve account holds beyond its rent.", "quantifier": "all stake pool figures, fees, reserve balances, cached pool states and amounts for which the command builds its instructions", "why_tests_cant": "The bound composes three roundings (fee up, share down, difference of two rounded values) over all fee fractions and exchange rates; samples cannot show that no figures make the subsidy grow with the amount.", "anchors": ["cli/s-controller/src/stakedex_reimpl/withdraw_sol.rs: WithdrawSolStakedex::quote_withdraw_sol", "cli/s-controller/src/subcmd/rebal_withdraw_sol.rs: RebalWithdrawSolArgs::run"]}
{"id": "C83", "title": "The controller and the programs it calls understand each other's bytes", "statement": "For every request the controller sends and every state of the programs of this repository, the flat-fee program, the no-fee program and the five SOL value calculators decode the instruction data the controller sends into the request it meant, and the controller reads from their return data exactly the number or range they computed; an instruction of the controller has the same outcome whether requests and answers are exchanged as numbers or as the bytes actually sent. For any other program: no return data, or fewer than 8 (pricing) or 16 (calculator) bytes, makes the instruction fail as faulty; otherwise the first 8 bytes are the price, resp. the first 16 the minimum and the maximum of the range, little-endian.", "quantifier": "all reachable states, instructions, accounts and data of the controller; all states of the flat-fee and calculator programs and of the accounts they read; all u64 amounts; all return data", "why_tests_cant": "Layout mismatches (endianness, widths, discriminators, truncation of large answers) only show on particular values, and two programs tested separately against their own fixtures can still disagree.", "anchors": ["programs/s-controller/src/cpi/pricing_program.rs: invoke_interface_ix", "programs/s-controller/src/cpi/sol_value_calculator.rs: invoke_interface_ix", "libs/sol-value-calculator-programs/sol-value-calculator-onchain/src/lib.rs: process_lst_to_sol_unchecked", "programs/pricing-programs/flat-fee/src/lib.rs: process_instruction", "programs/pricing-programs/no-fee-pricing-program/src/lib.rs: process_instruction"]}
{"id": "C84", "title": "A deposit's LP tokens are worth the deposit, to within one LP token", "statement": "Whoever deposits LSTs that the pricing program credits at u lamports receives LP tokens which, together with one more LP token, are worth more than u at the pool's recorded value per LP token right after the deposit; so the depositor loses less than one LP token's value to rounding, and what the pool would value the tokens at right away falls short of u by at most one LP token's value and one lamport. With the flat-fee or the no-fee program u is the full value of the deposit. (Up to the rounding slack of C09 for stake pools with withdrawal fees; the only exception is a pool that has LP tokens but no value.)", "quantifier": "all reachable pool states, deposits, LSTs, calculators of this repository with usable figures, and pricing programs; in the deployed system every deposit of every history", "why_tests_cant": "Inflated LP prices (first-depositor and donation attacks) make the rounding arbitrarily large; only a bound over all supplies, totals and amounts shows that the loss never exceeds one LP token.", "anchors": ["programs/s-controller/src/processor/add_liquidity.rs: process_add_liquidity", "libs/s-controller-lib/src/calc.rs: calc_lp_tokens_to_mint"]}
{"id": "C85", "title": "Instructions built from an outdated view of the chain fail or do what they would do now", "statement": "Clients and the command-line tool read the pool state and the lists, build an instruction that refers to LSTs (and disable authorities) by position, and send it later. Whatever outdated or wrong state was read, if the program accepts the instruction, then the same request made against the current state yields exactly the same instruction: it cannot act on another LST, use another calculator or pricing program, or speak for a former authority. This holds for SyncSolValue, both swaps, AddLiquidity, RemoveLiquidity, StartRebalance, Disable/EnableLstInput, SetSolValueCalculator, RemoveLst and RemoveDisablePoolAuthority, and for every administrative command of the tool except withdraw-protocol-fees (which may name the balance it read) and init.", "quantifier": "all reachable states, all states or lists read before (not necessarily ever real), all requests and account lists, all calculators and pricing programs", "why_tests_cant": "The race is between the reading and the execution: tests run both against one state, or against a few hand-picked changes; here the two states are unrelated.", "anchors": ["libs/s-controller-lib/src/accounts_resolvers: *ByMint*::resolve", "libs/s-controller-lib/src/instructions: *_ix_by_mint_full", "programs/s-controller/src/processor: verify_*", "cli/s-controller/src/subcmd"]}
{"id": "C86", "title": "The order in which swaps and syncs are executed does not matter", "statement": "Take any set of swaps (exact-in or exact-out, by anyone, over any LSTs) and syncs, each in its own transaction. If they all go through in one order and also all go through in another, both orders lead to exactly the same state of the pool and of every token account. Whoever orders the transactions (validator, block builder) can neither gain nor take from a trader by reordering; he can only make a trade fail. This also holds for the deployed programs together while stake pools, fees and clock stay as they are.", "quantifier": "all reachable states, all finite lists of swaps and syncs, all permutations of them, all calculators and pricing programs that answer by the request", "why_tests_cant": "The number of orders and interleavings is unbounded; a test runs one pair of orders on one state.", "anchors": ["programs/s-controller/src/processor/swap_exact_in.rs: process_swap_exact_in", "programs/s-controller/src/processor/swap_exact_out.rs: process_swap_exact_out", "programs/s-controller/src/processor/sync_sol_value.rs: process_sync_sol_value", "programs/s-controller/src/processor/sync_sol_value.rs: sync_sol_value_unchecked"]}
{"id": "C87", "title": "An LST can be delisted, in one transaction nobody can get in the way of", "statement": "A rebalance of an LST that goes through and leaves its reserves empty leaves it recorded at no value and the list otherwise as it was. Such a transaction can be extended by a withdrawal of all fees accumulated in the LST (signed for by the beneficiary) and by RemoveLst (signed for by the admin): the extended transaction goes through as a whole, the LST is gone, the other LSTs and the pool are as after the rebalance and the fees are where the beneficiary wanted them. As it is one transaction, nobody can block the removal by sending a token to the pool in between.", "quantifier": "all reachable states, all rebalancing transactions with whatever other programs do in between, all LSTs and calculators that value nothing at nothing", "why_tests_cant": "Every state, list position and interleaving of foreign programs is covered; that later instructions do not disturb earlier ones (instruction introspection) is a fact about all transactions.", "anchors": ["programs/s-controller/src/processor/start_rebalance.rs: process_start_rebalance, verify_has_succeeding_end_rebalance_ix", "programs/s-controller/src/processor/end_rebalance.rs", "programs/s-controller/src/processor/withdraw_protocol_fees.rs", "programs/s-controller/src/processor/remove_lst.rs"]}
{"id": "C88", "title": "With the programs deployed together and in order, liquidity providers can leave", "statement": "After any history of the deployed programs: if the pool is neither disabled nor rebalancing, the LST's calculator is in order (its stake pool is usable this epoch and its program has not been upgraded since the manager recorded it), pricing is by the flat-fee or the no-fee program and the LST's reserves are worth the share of the LP tokens, then the redemption the client library builds goes through as a transaction; the holder gives exactly the LP tokens and gets at least the share, less the withdrawal fee, at the stake pool's rate. With recorded values up to date, a holder of at most an n-th of the LP tokens of a pool of n LSTs can always leave in one such transaction.", "quantifier": "all histories of the deployed programs, all stake pools and figures, all holders and amounts", "why_tests_cant": "It is a liveness claim across three programs: none of the many checks on the way may refuse, whatever the history, the figures and the amounts; tests only show particular redemptions accepted.", "anchors": ["programs/s-controller/src/processor/remove_liquidity.rs", "programs/sol-value-calculator-programs/*: lst_to_sol, sol_to_lst", "libs/sol-value-calculator-programs/generic-pool-calculator-onchain/src/processor/", "programs/pricing-programs/flat-fee/src/processor/price_lp_tokens_to_redeem.rs", "libs/s-controller-lib/src/instructions/remove_liquidity.rs"]}
{"id": "C89", "title": "Refresh, quote, execute in the deployed system: what Jupiter shows is what the user gets", "statement": "After any history of the deployed programs, with the calculators and stake pools of the listed LSTs in working order and the pool neither disabled nor rebalancing: a Jupiter cache, however it was made and whatever it was fed from the chain before, that is refreshed twice and then quotes a deposit, a redemption or a swap, also builds the instruction for it with the quoted amounts as limits; the transaction with that instruction succeeds for a user who has the input tokens (provided no u64 overflows and, for swaps, the pool does not lose by rounding), and the user pays exactly the quoted input and receives exactly the quoted output.", "quantifier": "all histories of the deployed programs, all cache histories, all quotes, mints, amounts and users", "why_tests_cant": "It joins the off-chain cache, its account fetching, the client's account lists, the controller, the calculators and the pricing program; any disagreement in any state of any of them makes a user's transaction fail or pay other amounts than shown. Tests see a few states.", "anchors": ["libs/s-jup-interface/src/update.rs: update_full", "libs/s-jup-interface/src/core/{swap_exact_in,swap_exact_out,add_liquidity,remove_liquidity}.rs: quotes and instructions", "libs/s-jup-interface/src/jup_interface.rs: quote, get_swap_and_account_metas", "libs/aggregate/s-sol-val-calc-prog-aggregate", "libs/aggregate/s-pricing-prog-aggregate/src/flat_fee.rs", "programs/s-controller/src/processor/{swap_exact_in,swap_exact_out,add_liquidity,remove_liquidity}.rs", "programs/pricing-programs/flat-fee/src/processor/"]}
{"id": "C90", "title": "A failing calculator, stake pool or pricing program stops only what needs it", "statement": "An instruction of the controller depends on no other programs than the calculators of the LSTs it names and, for trades, the pool's pricing program (the new calculator, when one is set): in two situations in which these answer the same about the accounts passed, the instruction has the same outcome, success or failure, down to every balance and record, whatever all other programs do. In the deployed system: an LST whose stake pool is outdated, paused or upgraded unreviewed, or whose calculator was never initialized, stops no instruction that does not name it.", "quantifier": "all instructions, all states, all pairs of environments (stake pools, programs, calculator states) that agree on what the instruction needs", "why_tests_cant": "Independence is a statement about pairs of executions over all behaviours of all other programs; a test fixes one behaviour of each.", "anchors": ["programs/s-controller/src/verify.rs", "programs/s-controller/src/cpi/sol_value_calculator.rs", "programs/s-controller/src/cpi/pricing_program.rs", "programs/s-controller/src/processor/*.rs", "libs/sol-value-calculator-programs/generic-pool-calculator-onchain/src/processor/"]}
{"id": "C91", "title": "The protocol fee accumulators are exact books", "statement": "Over every history of transactions during which a protocol fee accumulator is not closed, what it holds in the end plus what the beneficiary withdrew from it equals what it held at first, plus the protocol fee of every swap, deposit and redemption that named it (the configured share, rounded as specified, of the value the pricing program charged, computed from the answers that trade got), plus whatever other programs or users naming it as their receiving account sent to it. If nobody sends anything, it holds exactly the fees not yet taken: no fee is lost, none is charged twice, none comes from elsewhere.", "quantifier": "all reachable states, all histories of transactions with arbitrary other programs, all accumulators", "why_tests_cant": "An identity between a balance and sums over histories of unbounded length.", "anchors": ["programs/s-controller/src/processor/swap_exact_in.rs", "programs/s-controller/src/processor/swap_exact_out.rs", "programs/s-controller/src/processor/add_liquidity.rs", "programs/s-controller/src/processor/remove_liquidity.rs", "programs/s-controller/src/processor/withdraw_protocol_fees.rs"]}
{"id": "C92", "title": "Liquidity providers of any size can leave without help", "statement": "With the repository's programs deployed together, in a pool that is neither disabled nor rebalancing, whose recorded values are up to date and whose calculators are in working order, a holder of any number of LP tokens, even of all of them, can leave by redemptions alone, built by the client library and signed by the holder only: there is a finite sequence of redemptions, each accepted and each paying at least the full share of its LP tokens less the withdrawal fee, after which only dust is left: fewer LP tokens than LSTs, or so few that an n-th of the pool's share of them buys no base unit of any LST that could pay it.", "quantifier": "all histories of the deployed system, all pools in order of any number of LSTs, all holders and balances", "why_tests_cant": "An existence claim for every pool and holder; the number of redemptions is unbounded and the order of the pool has to survive each of them.", "anchors": ["programs/s-controller/src/processor/remove_liquidity.rs", "libs/s-controller-lib/src/instructions/remove_liquidity.rs", "programs/s-controller/src/utils/mod.rs"]}
{"id": "C93", "title": "Rebalancing commands take out what the user asked for and hand all of it to the stake pools", "statement": "The rebalancing commands of the command-line tool accept an amount or, in any case of letters, `all`. When the StartRebalance of a command's transaction executes in a state in which the pool's reserves are as the command read them, exactly the amount asked for leaves the pool's reserves of the source LST into the payer's own associated token account, and nothing else moves; with `all` the reserves hold nothing afterwards. Before StartRebalance the transaction at most creates that token account; EndRebalance is last; in between, exactly the amount taken out is handed to the stake pool, the payer pays at most a subsidy it has, and everything paid into a token account goes to the pool's reserves of the destination LST. `rebal-stake` passes the stake through one stake account, created with the rent, filled, and deposited, in that order. Its route is the first offered stake account for which the other stake pool, counting the prefunded rent, mints something; without overflow there is none only if nothing would be minted for any.", "quantifier": "all arguments, LSTs, caches, lists of stake accounts offered, deposit quotes, payers and reachable states", "why_tests_cant": "Ranges over all lists of quotes and all states; the command's derived addresses must agree with what the program accepts for every pool.", "anchors": ["cli/s-controller/src/lst_amt_arg.rs:LstAmtArg::parse_arg", "cli/s-controller/src/subcmd/rebal_stake.rs:RebalStakeArgs::run", "cli/s-controller/src/subcmd/rebal_sol.rs", "cli/s-controller/src/subcmd/rebal_withdraw_sol.rs", "cli/s-controller/src/stakedex_reimpl/utils.rs:first_avail_withdraw_deposit_stake_quote"]}
{"id": "C94", "title": "The mints the Jupiter library offers are the ones it trades", "statement": "Whatever the library's cache holds, every quote it gives and every instruction it builds is between two mints of its list of mints, and the fee of a quote is in one of them; after a refresh from the chain that list is exactly the pool's LSTs in the pool's order, each once, followed by the LP token.", "quantifier": "all caches, quote and swap parameters; all histories of the pool and of the cache", "why_tests_cant": "Ranges over all caches and histories.", "anchors": ["libs/s-jup-interface/src/core/mod.rs:get_reserve_mints_full", "libs/s-jup-interface/src/jup_interface.rs:get_reserve_mints", "libs/s-jup-interface/src/lib.rs:find_ready_lst"]}
{"id": "C95", "title": "Signatures of the rebalancing transactions", "statement": "The transactions of `rebal-sol` and `rebal-stake` need no signature but the payer's and the rebalance authority's, the two the commands sign with. The transaction of `rebal-withdraw-sol` can do with these two exactly if the subsidy payer is one of them or there is no subsidy to transfer.", "quantifier": "all arguments, LSTs, caches, quotes, payers, authorities and reachable states", "why_tests_cant": "Ranges over all pools and quotes; whether a subsidy is due depends on the pool's state.", "anchors": ["cli/s-controller/src/subcmd/rebal_stake.rs:RebalStakeArgs::run", "cli/s-controller/src/subcmd/rebal_sol.rs", "cli/s-controller/src/subcmd/rebal_withdraw_sol.rs"]}
{"id": "C96", "title": "What the command-line arguments are taken for", "statement": "`set-pricing-prog` accepts exactly the name `flat-fee` and public keys, and the pool's pricing program becomes the program named. The calculator tool accepts exactly its six names and public keys; `lst-to-sol` and `sol-to-lst` print exactly what the calculator program named answers, whether it is named by its name or by its key, and refuse programs other than the six. `rebal-stake` moves the stake through the payer's stake account with the first of nine seeds at which no account exists, and fails if accounts exist at all nine.", "quantifier": "all argument texts, keys, chain states, calculator states and sets of existing accounts", "why_tests_cant": "Ranges over all texts and keys, all states of the calculators and pools, and all sets of existing stake accounts.", "anchors": ["cli/s-controller/src/pricing_prog_arg.rs", "cli/s-controller/src/subcmd/set_pricing_prog.rs", "cli/generic-pool-calculator/src/sol_val_calc_arg.rs", "cli/generic-pool-calculator/src/subcmd/common.rs", "cli/s-controller/src/rpc.rs:find_unused_stake_prog_create_with_seed"]}
{"id": "C97", "title": "Instructions built for another deployment", "statement": "The builders of SyncSolValue, RemoveLst, SetSolValueCalculator and StartRebalance that take a program id give, for the deployment the library was compiled for, the same instruction as the builders without one. For a deployment whose pool is another account the instruction goes to that deployment's program and is the one its own constants would give except for the reserves (and fee accumulator), which are the default pool's; and it is one that deployment never accepts: in no state, for no signers, in no transaction and whatever other programs do.", "quantifier": "all pairs of deployments, list contents, mints, amounts, states of the other deployment, transactions and escalations of account privileges", "why_tests_cant": "The refusal ranges over every state and every transaction of the other deployment.", "anchors": ["libs/s-controller-lib/src/accounts_resolvers/sync_sol_value.rs:resolve_for_prog", "libs/s-controller-lib/src/accounts_resolvers/remove_lst.rs:resolve_for_prog", "libs/s-controller-lib/src/accounts_resolvers/set_sol_value_calculator.rs:resolve_for_prog", "libs/s-controller-lib/src/accounts_resolvers/start_rebalance.rs:resolve_for_prog", "libs/s-controller-lib/src/pda.rs:create_pool_reserves_address"]}
{"id": "C98", "title": "What time arbitrage can yield, and which fees offset it", "statement": "In the deployed system (controller, flat-fee pricing, the repository's calculators): someone who swaps LST A for LST B and at any later time, after anything else has happened and whatever the rates and fees have become, swaps B back to A receives A paying out at most what the A given paid out, times the fractions left by the two flat fees, times the growth of the payout of the B held; so there is no profit if that growth is at most 10^8/(n1*n2), where n1 and n2 are what the fees leave of 10000. Someone who deposits and later redeems at most the LP tokens received gets LSTs paying out at most the deposit's payout, times the fraction left by the withdrawal fee, times the growth of the pool's value per LP token; so there is no profit while that growth is at most 10000/(10000 - fee). This is the condition behind 'fees must be enough to offset such potential losses' of docs/risks.md.", "quantifier": "all histories of the deployed system, all pairs of swaps (exact in or exact out) and all pairs of a deposit and a redemption in them, all rates, fees and amounts", "why_tests_cant": "Ranges over all histories between the two trades and all rate movements and fee settings.", "anchors": ["docs/risks.md", "programs/s-controller/src/processor/swap_exact_in.rs", "programs/s-controller/src/processor/swap_exact_out.rs", "programs/s-controller/src/processor/add_liquidity.rs", "programs/s-controller/src/processor/remove_liquidity.rs", "libs/pricing-programs/flat-fee-lib/src/calc"]}
{"id": "C99", "title": "One list of accounts serves both directions of a calculator", "statement": "If a SOL value calculator answers one question with a list of accounts, it answers every question in both directions with the same list, exactly when the conversion itself succeeds, and all answers come from the figures of one and the same stake pool of the mint listed first; nothing is written. Converting an LST amount to lamports and back with the same accounts gives a range containing the amount; converting lamports to LSTs and back gives at most the lamports for the minimum and at least the lamports for the maximum. The wrapped-SOL calculator does the same.", "quantifier": "all calculator programs of the repository, chain states, recorded states, account lists, questions and amounts", "why_tests_cant": "Ranges over all states of the stake pools and all amounts; the interface document demands it of all accounts lists.", "anchors": ["docs/sol-value-calculator-programs/README.md", "programs/sol-value-calculator-programs/spl-calculator/src/processor", "programs/sol-value-calculator-programs/lido-calculator/src/processor", "programs/sol-value-calculator-programs/marinade-calculator/src/processor", "programs/sol-value-calculator-programs/wsol-calculator/src/lib.rs"]}
{"id": "C100", "title": "The minimum a depositor demands bounds what an inflated LP price can cost", "statement": "However the price of an LP token was driven up before (a tiny first deposit followed by gifts to the reserves included), a depositor who demands at least m LP tokens for a deposit credited at u lamports receives at least m, pays at most u/m lamports per LP token, and receives LP tokens worth more than m/(m+1) of u right after the deposit; with pricing programs that credit deposits in full, all other LP tokens together gain less than the price of one LP token (plus the calculator's rounding). Demanding one LP token, half the deposit can be lost (shown on an example).", "quantifier": "all reachable states and histories of the deployed system, all deposits, minimums, calculators and pricing programs", "why_tests_cant": "The attacker chooses the history: the bound has to hold for every state of the pool that gifts, deposits and redemptions can produce.", "anchors": ["programs/s-controller/src/processor/add_liquidity.rs", "libs/s-controller-lib/src/calc.rs"]}
{"id": "C101", "title": "The flat-fee program and the calculators pay for their accounts from signers only, keep them rent-exempt and return the rent of removed fee accounts", "statement": "An instruction of the flat-fee pricing program or of a SOL value calculator that is accepted changes only accounts that were passed as writable. It takes lamports only from an account that signed it - Initialize, AddLst and Init raise the account they create to the rent of its 34, 6 or 40 bytes, out of the payer's account, and change nothing else - or, in RemoveLst, from the fee account it closes, everything in which goes to the refund account. It creates and destroys no lamports. Whatever happened since deployment, the accounts of these programs that exist hold at least the rent of their size.", "quantifier": "all instructions, account lists, lamport balances and rent rates, all histories of instructions of these programs with arbitrary activity of others in between", "why_tests_cant": "Tests run a few instructions with funded payers; the claim covers every account list (a payer who has not signed, gifts to an address before it is created, removal of a mint that has no fee account) and every history.", "anchors": ["programs/pricing-programs/flat-fee/src/processor/initialize.rs", "programs/pricing-programs/flat-fee/src/processor/add_lst.rs", "programs/pricing-programs/flat-fee/src/processor/remove_lst.rs", "libs/sol-value-calculator-programs/generic-pool-calculator-onchain/src/processor/init.rs"]}
{"id": "C102", "title": "The rebalancing commands work on a cache that shows the chain", "statement": "If a rebalancing command of the command line (rebal-sol, rebal-stake, rebal-withdraw-sol) gets a cache from its two requests - the pool state, the LST list and the clock, then the accounts of the LSTs it rebalances - and the chain did not change in between, then that cache holds the pool state and the LST list as they are, everything in it agrees with the chain, and for each LST to rebalance that it knows it holds the pool's reserves and the figures of its stake pool as they are. It gets none for a pool whose pricing program is not the flat-fee program. rebal-withdraw-sol quotes the SOL it will withdraw from the stake pool and the reserve account of its last request, whatever the earlier one brought; it gets a quote only if that reserve account is the one the stake pool named in the earlier request.", "quantifier": "all deployed systems and histories, LST lists, chains, requests and answers (accounts may be missing from an answer if they do not exist, and it may contain more than was asked for)", "why_tests_cant": "There are no tests of the commands; the claim covers every pool, list and chain, answers with accounts missing or added, and changes of the stake pool between the requests.", "anchors": ["cli/s-controller/src/subcmd/rebal_sol.rs", "cli/s-controller/src/subcmd/rebal_stake.rs", "cli/s-controller/src/subcmd/rebal_withdraw_sol.rs", "cli/s-controller/src/stakedex_reimpl/withdraw_sol.rs", "libs/s-jup-interface/src/update.rs:get_accounts_to_update_lsts_filtered"]}
{"id": "C103", "title": "A key that signs nothing protects what it controls", "statement": "Whatever else happens, and whoever holds the other keys: while the admin signs nothing, it stays admin, and the pricing program, the protocol fee rates, the LP mint and the list of LSTs with their calculators and input flags stay, no disable authority is added and a disabled pool stays disabled, and a swap executed at the end moves the same amounts as at the start if the calculators and the pricing program answer the same; while the fee beneficiary signs nothing, it stays beneficiary and no account of the protocol fees loses anything; while neither the rebalance authority nor the admin signs, the rebalance authority stays, no rebalance starts or ends, and reserves leave only by swaps and redemptions; while neither the admin nor a disable authority signs, the pool is neither disabled nor enabled; while the initial authority signs nothing, no pool comes into being; while none of the pool's keys signs, the only instructions that succeed are syncing, swapping and adding or removing liquidity; while the manager of the flat-fee program signs none of its instructions, no fee changes; while the manager of a calculator signs none of its instructions, its manager and acknowledged upgrade slot stay.", "quantifier": "all states, all histories of transactions (of the controller, and of the deployed system with its programs) in which the key in question signs nothing", "why_tests_cant": "Tests try single unauthorised calls; the claim covers every sequence of calls by holders of all other keys, including role transfers in between.", "anchors": ["programs/s-controller/src/processor", "programs/s-controller/src/verify.rs", "programs/pricing-programs/flat-fee", "libs/sol-value-calculator-programs/generic-pool-calculator-onchain/src/processor"]}
{"id": "C104", "title": "A rebalance planned from the chain goes through on the chain", "statement": "In the deployed system, if a rebalancing command (rebal-sol, rebal-stake, rebal-withdraw-sol) gets its cache from the chain and plans a rebalance, then the transaction it sends succeeds, provided the chain has not changed in between, the pool is active, the two LSTs differ, the destination LST may be deposited, the pool's reserves of the source LST have the amount, the account the amount goes to is an account of the source LST, and the instructions of the stake pool and the payer in between deliver what was quoted.", "quantifier": "all deployed systems and histories, LST lists, chains, requests and answers, amounts, quotes and subsidies", "why_tests_cant": "There are no tests of the commands; the claim joins what the commands read, what they compute and what every program of the system does with the result, for every pool, list and chain.", "anchors": ["cli/s-controller/src/subcmd/rebal_sol.rs", "cli/s-controller/src/subcmd/rebal_stake.rs", "cli/s-controller/src/subcmd/rebal_withdraw_sol.rs", "programs/s-controller/src/processor/start_rebalance.rs", "programs/s-controller/src/processor/end_rebalance.rs"]}
{"id": "C105", "title": "Only the admin, the disable authorities and the programs of an LST can keep liquidity providers in", "statement": "In the deployed system, while neither the admin nor a disable authority signs anything, an open pool stays open, with the same LP mint, pricing program and LSTs in the same places with the same calculators, whatever the rebalance authority, the fee beneficiary, the managers of the other programs and everybody else do. A redemption instruction built from the pool as it was then goes through at any later time at which the LST's calculator and the pricing program work and its reserves are worth the share: the holder parts with exactly the LP tokens offered and gets at least the minimum.", "quantifier": "all deployed systems, all histories before and after the instruction is built in which the admin and the disable authorities sign nothing, all LSTs, holders and amounts", "why_tests_cant": "It is about every later history of all programs, with every other key in an adversary's hands, and about instructions built from an outdated view.", "anchors": ["programs/s-controller/src/processor/remove_liquidity.rs", "programs/s-controller/src/processor/disable_pool.rs", "libs/s-controller-lib/src/instructions/remove_liquidity.rs", "libs/s-controller-lib/src/accounts_resolvers/remove_liquidity.rs"]}
{"id": "C106", "title": "Client-built instructions ask for no more signatures and write access than needed", "statement": "Every instruction built by the controller's client library and by the command-line tools of the controller's admin, the fee beneficiary, the flat-fee manager and the calculators' managers asks for no signature but that of the party acting (and of the payer, where an account is created), and for write access to no account but those the instruction is about: the user's own accounts, the reserves and fee accumulator of the LSTs named, the LP mint, and the pool's records concerned. The accounts of the calculators and of the pricing program are passed on with the flags given. Asking a calculator for a price needs no signature and no write access.", "quantifier": "all pool states, LSTs, users, amounts and accounts given for the calculators and the pricing program", "why_tests_cant": "A superfluous signer or writable flag changes no result in any test; only the absence of such flags over all builders and inputs shows that a wallet signing the instruction risks no other account.", "anchors": ["generated/s_controller_interface/src/instructions.rs", "libs/s-controller-lib/src/instructions", "libs/s-controller-lib/src/accounts_resolvers", "cli/s-controller/src/subcmd", "cli/pricing-programs/flat-fee/src/subcmd", "cli/generic-pool-calculator"]}
