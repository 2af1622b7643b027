{
 "claims": [
  {
   "property": "C01",
   "status": "proved",
   "theorems": [
    "S.C01_total_is_sum"
   ],
   "note": ""
  },
  {
   "property": "C02",
   "status": "proved",
   "theorems": [
    "S.C02_never_left_rebalancing"
   ],
   "note": ""
  },
  {
   "property": "C03",
   "status": "proved",
   "theorems": [
    "S.C03_rebalance_keeps_total",
    "S.C03_start_total"
   ],
   "note": ""
  },
  {
   "property": "C04",
   "status": "proved",
   "theorems": [
    "S.C04_swapExactIn"
   ],
   "note": "Quiet environment: calculators and pricing programs change no accounts."
  },
  {
   "property": "C05",
   "status": "proved",
   "theorems": [
    "S.C05_swapExactOut"
   ],
   "note": "Quiet environment."
  },
  {
   "property": "C06",
   "status": "proved",
   "theorems": [
    "S.C06_addLiquidity"
   ],
   "note": "Quiet environment."
  },
  {
   "property": "C07",
   "status": "proved",
   "theorems": [
    "S.C07_removeLiquidity"
   ],
   "note": "Quiet environment."
  },
  {
   "property": "C08",
   "status": "proved",
   "theorems": [
    "S.C08_swap",
    "S.C08_addLiquidity"
   ],
   "note": ""
  },
  {
   "property": "C09",
   "status": "proved",
   "theorems": [
    "S.C09_addLiquidity",
    "S.C09_addLiquidity_full"
   ],
   "note": "Quiet environment; calculators of the repository."
  },
  {
   "property": "C10",
   "status": "proved",
   "theorems": [
    "S.C10_removeLiquidity"
   ],
   "note": "Quiet environment."
  },
  {
   "property": "C11",
   "status": "proved",
   "theorems": [
    "S.C11_no_profit"
   ],
   "note": "Excludes the LP token itself as the LST and a first deposit into a pool already holding LST."
  },
  {
   "property": "C12",
   "status": "proved",
   "theorems": [
    "S.C12_swapExactIn",
    "S.C12_swapExactOut",
    "S.C12_addLiquidity",
    "S.C12_removeLiquidity"
   ],
   "note": "Quiet environment."
  },
  {
   "property": "C13",
   "status": "proved",
   "theorems": [
    "S.C13_inactive_pool_refuses",
    "S.C13_committed_while_inactive"
   ],
   "note": ""
  },
  {
   "property": "C14",
   "status": "proved",
   "theorems": [
    "S.C14_authorized",
    "S.C14_history"
   ],
   "note": ""
  },
  {
   "property": "C15",
   "status": "proved",
   "theorems": [
    "S.C15_authorities",
    "S.C15_new_values",
    "S.C15_C34_entry_changes"
   ],
   "note": ""
  },
  {
   "property": "C16",
   "status": "proved",
   "theorems": [
    "S.C16_no_duplicate_lst"
   ],
   "note": ""
  },
  {
   "property": "C17",
   "status": "proved",
   "theorems": [
    "S.C17_remove_lst",
    "S.lst_set_changes"
   ],
   "note": ""
  },
  {
   "property": "C18",
   "status": "proved",
   "theorems": [
    "S.C18_nodup",
    "S.C18_changes"
   ],
   "note": ""
  },
  {
   "property": "C19",
   "status": "proved",
   "theorems": [
    "S.C19_fee_rates"
   ],
   "note": ""
  },
  {
   "property": "C20",
   "status": "proved",
   "theorems": [
    "S.C20_fees_leave"
   ],
   "note": ""
  },
  {
   "property": "C21",
   "status": "proved",
   "theorems": [
    "S.C21_reserves_leave",
    "S.held_accounts_stay"
   ],
   "note": ""
  },
  {
   "property": "C22",
   "status": "proved",
   "theorems": [
    "S.C22_exact",
    "S.C22_idempotent",
    "S.C22_order"
   ],
   "note": ""
  },
  {
   "property": "C23",
   "status": "proved",
   "theorems": [
    "S.C23_round_trips",
    "S.C23_ranges"
   ],
   "note": ""
  },
  {
   "property": "C24",
   "status": "proved",
   "theorems": [
    "S.C24_exact_in",
    "S.C24_exact_out_buys",
    "S.C24_too_high",
    "S.C24_no_gain"
   ],
   "note": "Exact-out bound for a total fee below 100%; at 100% the external crate answers, which the model leaves open."
  },
  {
   "property": "C25",
   "status": "proved",
   "theorems": [
    "S.C25_redeem",
    "S.C25_redeem_le",
    "S.C25_deposit",
    "S.C25_no_fee"
   ],
   "note": ""
  },
  {
   "property": "C26",
   "status": "proved",
   "theorems": [
    "S.C26_changes",
    "S.C26_signed",
    "S.C26_bounds",
    "S.C26_price_exact_in",
    "S.C26_price_exact_out",
    "S.C26_price_redeem"
   ],
   "note": "Over histories of successful calls of the flat-fee program with arbitrary accounts of other programs around it."
  },
  {
   "property": "C27",
   "status": "proved",
   "theorems": [
    "S.C27_answers",
    "S.C27_refused",
    "S.C27_changes",
    "S.C27_recorded",
    "S.C27_reviewed",
    "S.C27_C28_pool"
   ],
   "note": "The four calculator programs, down to instruction and account bytes, over arbitrary histories of calls; C27_C28_pool lifts it to every controller instruction that values an LST served by such a calculator. For Lido and Marinade the program-data address is a constant of the calculator and LoaderOk says it is the one the loader records."
  },
  {
   "property": "C28",
   "status": "proved",
   "theorems": [
    "S.C28_answers",
    "S.C28_wsol",
    "S.calc_values",
    "S.C27_C28_pool"
   ],
   "note": "Exact characterisation (iff) of when a calculator answers and with what."
  },
  {
   "property": "C29",
   "status": "proved",
   "theorems": [
    "S.C29_sizes",
    "S.C29_pool_state",
    "S.C29_rebalance_record",
    "S.C29_pool_write",
    "S.C30_read",
    "S.C29_in_range",
    "S.C29_stored"
   ],
   "note": "Byte-level repr(C) layouts; LstState is covered as the element type lstElem (lstElem_lawful, C30_read). C29_stored: over any history, the stored bytes of every account hold the model state."
  },
  {
   "property": "C30",
   "status": "proved",
   "theorems": [
    "S.C30_read",
    "S.C30_assign",
    "S.C30_assign_field",
    "S.C30_append",
    "S.C30_remove",
    "S.C30_addLst",
    "S.C30_removeLst",
    "S.C30_addAuthority",
    "S.C30_removeAuthority"
   ],
   "note": "Raw bytes with arbitrary fresh bytes on realloc; the *Lst / *Authority theorems tie the byte operations to the list operations of the controller model."
  },
  {
   "property": "C31",
   "status": "proved",
   "theorems": [
    "S.C31_swapExactIn",
    "S.C31_swapExactOut",
    "S.C31_addLiquidity",
    "S.C31_removeLiquidity"
   ],
   "note": "For every cache that shows the on-chain state (Fresh) and every instruction the controller accepts for the quoted amount, the quoted in and out amounts are the amounts moved. The four library quote functions are modelled separately from the controller. Fee amount and percentage of the quote are informational and not claimed."
  },
  {
   "property": "C32",
   "status": "proved",
   "theorems": [
    "S.C32_start_needs_end"
   ],
   "note": ""
  },
  {
   "property": "C33",
   "status": "proved",
   "theorems": [
    "S.C33_stored_numbers_fit",
    "S.C33_total_exact"
   ],
   "note": ""
  },
  {
   "property": "C34",
   "status": "proved",
   "theorems": [
    "S.C34_input_disabled_refused",
    "S.C15_C34_entry_changes",
    "S.C34_redeem_unaffected",
    "S.C34_swap_out_unaffected",
    "S.C34_rebalance_out_unaffected",
    "S.C34_sync_unaffected"
   ],
   "note": ""
  },
  {
   "property": "C35",
   "status": "proved",
   "theorems": [
    "S.C35_calculators",
    "S.C35_prices",
    "S.C35_lp"
   ],
   "note": ""
  },
  {
   "property": "C36",
   "status": "proved",
   "theorems": [
    "S.C36_split_value",
    "S.C36_split_value_all",
    "S.C36_split_lst",
    "S.C36_split_price",
    "S.C36_split_lp"
   ],
   "note": ""
  },
  {
   "property": "C37",
   "status": "proved",
   "theorems": [
    "S.C37_there_and_back",
    "S.swap_value",
    "S.flat_noRebate"
   ],
   "note": "Pricing without negative fees; flat_noRebate: met by the flat-fee program when no LST carries a negative fee."
  },
  {
   "property": "C38",
   "status": "proved",
   "theorems": [
    "S.C38_roundtrip",
    "S.C38_decoded",
    "S.C38_unambiguous",
    "S.C38_truncated",
    "S.C38_unknown",
    "S.C38_no_effect"
   ],
   "note": ""
  },
  {
   "property": "C39",
   "status": "proved",
   "theorems": [
    "S.C39_lp_mint_authority",
    "S.C39_supply_grows_only_by_deposit",
    "S.C39_supply_exact",
    "S.C39_every_token_minted_by_deposit"
   ],
   "note": ""
  },
  {
   "property": "C40",
   "status": "proved",
   "theorems": [
    "S.C40_initialize",
    "S.C40_only_once",
    "S.C40_history"
   ],
   "note": ""
  },
  {
   "property": "C41",
   "status": "proved",
   "theorems": [
    "S.C41_sync",
    "S.C41_lp_value"
   ],
   "note": ""
  },
  {
   "property": "C42",
   "status": "proved",
   "theorems": [
    "S.C42_sync",
    "S.C42_swap_exact_in",
    "S.C42_swap_exact_out",
    "S.C42_add_liquidity",
    "S.C42_remove_liquidity",
    "S.C42_set_sol_value_calculator",
    "S.C42_start_rebalance",
    "S.C42_end_rebalance",
    "S.C42_end_from_start"
   ],
   "note": "Delivers: changing the answers of any call other than those to the intended programs with the intended accounts changes nothing, and success implies each was called. Covers every builder with variable account lists and the EndRebalance derived from a StartRebalance."
  },
  {
   "property": "C43",
   "status": "proved",
   "theorems": [
    "S.C43_find",
    "S.C43_match",
    "S.C43_client_index",
    "S.C43_find_authority",
    "S.C43_sync",
    "S.C43_lst_input",
    "S.C43_remove_authority",
    "S.C43_remove_lst",
    "S.C43_set_calculator",
    "S.C43_swap_exact_in",
    "S.C43_swap_exact_out",
    "S.C43_add_liquidity",
    "S.C43_remove_liquidity",
    "S.C43_start_rebalance"
   ],
   "note": "Lookup characterised for every list; every by-mint builder executed against the on-chain checks."
  },
  {
   "property": "C44",
   "status": "proved",
   "theorems": [
    "S.C44_conserved",
    "S.C44_backed"
   ],
   "note": ""
  },
  {
   "property": "C45",
   "status": "proved",
   "theorems": [
    "S.C45_aligned",
    "S.C45_from_list",
    "S.C45_no_panic",
    "S.C45_kept"
   ],
   "note": "Every sequence of the six update functions with arbitrary fetched accounts and any epoch changes, from any of the three constructors. Assumes the Sanctum LST list gives Lido, Marinade and the reserve pool only to their own mints (GoodList); the pool struct is changed only through the update functions."
  },
  {
   "property": "C46",
   "status": "proved",
   "theorems": [
    "S.C46_lst_accounts"
   ],
   "note": ""
  },
  {
   "property": "C47",
   "status": "proved",
   "theorems": [
    "S.C47_user_instructions"
   ],
   "note": ""
  },
  {
   "property": "C48",
   "status": "proved",
   "theorems": [
    "S.C48_disable",
    "S.C48_enable",
    "S.C48_flag_changes"
   ],
   "note": ""
  },
  {
   "property": "C49",
   "status": "proved",
   "theorems": [
    "S.C49_pricing"
   ],
   "note": "All constructors and all sequences of the six update functions and epoch changes."
  },
  {
   "property": "C50",
   "status": "proved",
   "theorems": [
    "S.C50_metas",
    "S.C50_program"
   ],
   "note": "Equivalence for exact-in and exact-out requests; deposits and redemptions have no exact-out form."
  },
  {
   "property": "C51",
   "status": "proved",
   "theorems": [
    "S.C51_backed",
    "S.C51_lp_price",
    "S.C51_trading",
    "S.C51_no_fees"
   ],
   "note": "Called programs move no tokens (Quiet) and value LSTs as the calculators of this repository do on usable stake pools; a backed starting state and a non-zero LP supply are hypotheses."
  },
  {
   "property": "C52",
   "status": "proved",
   "theorems": [
    "S.C52_no_profit",
    "S.C52_gap"
   ],
   "note": "Same assumptions on the called programs as C51; the LP mint is not a listed LST."
  },
  {
   "property": "C53",
   "status": "proved",
   "theorems": [
    "S.C53_refresh"
   ],
   "note": "The chain is described account by account (Shows, Answers) in bytes, except token accounts and mints, whose external parsers are parameters. A closed fee account stays cached, so its absence is a hypothesis (an example shows it is needed)."
  },
  {
   "property": "C54",
   "status": "proved",
   "theorems": [
    "S.C54_removeLiquidity",
    "S.C54_addLiquidity",
    "S.C54_swapExactIn",
    "S.C54_swapExactOut",
    "S.C54_exactIn_keeps_covered",
    "S.C54_exactIn_keeps"
   ],
   "note": "the conditions the library does not check (totals fit in 64 bits, positive payout, the pool keeps its value) are hypotheses; C54_exactIn_keeps discharges the last for exact-in quotes without withdrawal fees"
  },
  {
   "property": "C55",
   "status": "proved",
   "theorems": [
    "S.C55_recorded"
   ],
   "note": ""
  },
  {
   "property": "C56",
   "status": "proved",
   "theorems": [
    "S.C56_rebalSol",
    "S.C56_rebalStake",
    "S.C56_rebalWithdrawSol",
    "S.C56_authority",
    "S.C56_stake_search"
   ],
   "note": "That the stake pool delivers its quote and the subsidy arrives is a hypothesis (Delivered); rebal-sol and rebal-withdraw-sol do not check that the pool total fits in 64 bits (SyncFits), rebal-stake does."
  },
  {
   "property": "C57",
   "status": "proved",
   "theorems": [
    "S.C57_force",
    "S.C57_rising",
    "S.C57_some",
    "S.C57_four"
   ],
   "note": "Nothing else happens on the chain while the command runs; the calculator programs answer by their calculators when given the listed accounts (Valued)."
  },
  {
   "property": "C58",
   "status": "proved",
   "theorems": [
    "S.C58_refuses",
    "S.C58_setLstFee",
    "S.C58_addLst",
    "S.C58_removeLst",
    "S.C58_setManager",
    "S.C58_setLpFee",
    "S.C58_initialize",
    "S.C58_batch_touches",
    "S.C58_batch"
   ],
   "note": "Accounts: the RPC answer lists exactly the program state and fee accounts."
  },
  {
   "property": "C59",
   "status": "proved",
   "theorems": [
    "S.C59_refuses",
    "S.C59_update",
    "S.C59_setManager",
    "S.C59_init",
    "S.C59_ask",
    "S.C59_restored"
   ],
   "note": ""
  },
  {
   "property": "C60",
   "status": "proved",
   "theorems": [
    "S.C60_refuses",
    "S.C60_setAdmin",
    "S.C60_setProtocolFee",
    "S.C60_setBeneficiary",
    "S.C60_setPricing",
    "S.C60_setRebAuth",
    "S.C60_enablePool",
    "S.C60_disablePool",
    "S.C60_addAuth",
    "S.C60_removeAuth",
    "S.C60_lstInput",
    "S.C60_addLst",
    "S.C60_removeLst",
    "S.C60_setCalc",
    "S.C60_withdraw_runs",
    "S.C60_withdraw",
    "S.C60_init"
   ],
   "note": "For set-sol-value-calculator the new calculator values the reserves and the new total fits in 64 bits (hypotheses)."
  },
  {
   "property": "C61",
   "status": "proved",
   "theorems": [
    "S.C61_canonical"
   ],
   "note": ""
  },
  {
   "property": "C62",
   "status": "proved",
   "theorems": [
    "S.C62_addLst",
    "S.C62_removeLst",
    "S.C62_addAuth",
    "S.C62_removeAuth",
    "S.C62_initialize",
    "S.C62_rebalance",
    "S.C62_others",
    "S.C62_conserves",
    "S.C62_exempt",
    "S.C62_exempt_within"
   ],
   "note": ""
  },
  {
   "property": "C63",
   "status": "proved",
   "theorems": [
    "S.C63_states",
    "S.C63_tokens",
    "S.C63_lamports"
   ],
   "note": "Called programs leave the token ledger alone (Env.Quiet) for C63_tokens."
  },
  {
   "property": "C64",
   "status": "proved",
   "theorems": [
    "S.C64_debits"
   ],
   "note": "Called programs leave the token ledger alone (Env.Quiet)."
  },
  {
   "property": "C65",
   "status": "proved",
   "theorems": [
    "S.C65_together",
    "S.C65_reachable"
   ],
   "note": "Foreign calculators and pricing programs do not call the flat-fee program or the calculators back while the controller waits for their answer."
  },
  {
   "property": "C66",
   "status": "proved",
   "theorems": [
    "S.C66_reviewed"
   ],
   "note": "Lido and Marinade: the loader has recorded the fixed program data address as the programs (LoaderOk)."
  },
  {
   "property": "C67",
   "status": "proved",
   "theorems": [
    "S.C67_swapExactIn",
    "S.C67_swapExactOut",
    "S.C67_addLiquidity",
    "S.C67_removeLiquidity"
   ],
   "note": "Foreign programs move no tokens while asked (Quiet)."
  },
  {
   "property": "C68",
   "status": "proved",
   "theorems": [
    "S.C68_lp_price",
    "S.C68_no_profit"
   ],
   "note": ""
  },
  {
   "property": "C69",
   "status": "proved",
   "theorems": [
    "S.C69_startRebalance",
    "S.C69_endRebalance",
    "S.C69_withdrawProtocolFees"
   ],
   "note": "Called programs leave the token ledger alone (Env.Quiet)."
  },
  {
   "property": "C70",
   "status": "proved",
   "theorems": [
    "S.C70_redemption_accepted",
    "S.C70_some_lst_covers",
    "S.C70_leave"
   ],
   "note": "forward execution of RemoveLiquidity on the instruction built by the client library; calculator formulas bounded by a common line so that output plus protocol fee fit the reserves; pigeonhole over the LSTs"
  },
  {
   "property": "C71",
   "status": "proved",
   "theorems": [
    "S.C71_value",
    "S.C71_tight",
    "S.C71_program"
   ],
   "note": "payout rules stated independently of the code; C71_program applies them to the stake pool account the program reads"
  },
  {
   "property": "C72",
   "status": "proved",
   "theorems": [
    "S.C72_sync",
    "S.C72_force",
    "S.C72_works",
    "S.C72_argument"
   ],
   "note": "The sync command on the modelled controller; the chain is still while it runs."
  },
  {
   "property": "C73",
   "status": "proved",
   "theorems": [
    "S.C73_view"
   ],
   "note": "Displayed numbers before conversion to floating point."
  },
  {
   "property": "C74",
   "status": "proved",
   "theorems": [
    "S.C74_swapExactIn",
    "S.C74_swapExactOut",
    "S.C74_addLiquidity",
    "S.C74_removeLiquidity"
   ],
   "note": "For stake pools with tokens and lamports (Usable); exact-out for total fees below 100%."
  },
  {
   "property": "C75",
   "status": "proved",
   "theorems": [
    "S.C75_swapExactIn",
    "S.C75_swapExactOut",
    "S.C75_addLiquidity",
    "S.C75_removeLiquidity"
   ],
   "note": "feePct as the exact fraction, before Decimal rounds it."
  },
  {
   "property": "C76",
   "status": "proved",
   "theorems": [
    "S.C76_exactIn",
    "S.C76_exactOut",
    "S.C76_mint",
    "S.C76_redeem",
    "S.C76_viewLst",
    "S.C76_view",
    "S.C76_createLut"
   ],
   "note": "Numbers in lamports, before decimal formatting; exact-out for fees not totalling exactly 100%; the lookup table program is specified, not modelled from the repository."
  },
  {
   "property": "C77",
   "status": "proved",
   "theorems": [
    "S.C77_swapExactIn",
    "S.C77_swapExactOut",
    "S.C77_addLiquidity",
    "S.C77_removeLiquidity"
   ],
   "note": "Quiet environment (calculators and pricing answer by the request alone); all states and limits."
  },
  {
   "property": "C78",
   "status": "proved",
   "theorems": [
    "S.C78_swapExactIn",
    "S.C78_swapExactOut",
    "S.C78_front_running"
   ],
   "note": "For pure environments (same answers to the same requests)."
  },
  {
   "property": "C79",
   "status": "proved",
   "theorems": [
    "S.C79_redeem_later"
   ],
   "note": "Constant valuation and unchanged fees; the LST is recorded at its value at the start."
  },
  {
   "property": "C80",
   "status": "proved",
   "theorems": [
    "S.C80_quote_in_order",
    "S.C80_chain_in_order"
   ],
   "note": "The second theorem is for caches refreshed as in C53."
  },
  {
   "property": "C81",
   "status": "proved",
   "theorems": [
    "S.C81_rebalSol",
    "S.C81_rebalStake",
    "S.C81_rebalWithdrawSol"
   ],
   "note": "For rebal-stake the demanded value is assumed to fit into 64 bits (the code saturates)."
  },
  {
   "property": "C82",
   "status": "proved",
   "theorems": [
    "S.C82_dust",
    "S.C82_reserve"
   ],
   "note": "The fee and share formulas of the spl-stake-pool crate are modelled from that crate."
  },
  {
   "property": "C83",
   "status": "proved",
   "theorems": [
    "S.C83_price",
    "S.C83_calc",
    "S.C83_instruction",
    "S.C83_faulty_price",
    "S.C83_faulty_calc"
   ],
   "note": "the byte-level run of the programs agrees with the numeric one on every request; an instruction of the controller has the same outcome under both; return data of any other program characterised"
  },
  {
   "property": "C84",
   "status": "proved",
   "theorems": [
    "S.C84_deposit",
    "S.C84_full",
    "S.C84_system"
   ],
   "note": "lower bound for any pricing program, for one that credits deposits in full, and for every deposit in the deployed system"
  },
  {
   "property": "C85",
   "status": "proved",
   "theorems": [
    "S.C85_sync",
    "S.C85_swapExactIn",
    "S.C85_swapExactOut",
    "S.C85_addLiquidity",
    "S.C85_removeLiquidity",
    "S.C85_lstInput",
    "S.C85_removeLst",
    "S.C85_setCalc",
    "S.C85_startRebalance",
    "S.C85_removeAuth",
    "S.C85_cmd_setAdmin",
    "S.C85_cmd_setPricing",
    "S.C85_cmd_setProtocolFee",
    "S.C85_cmd_enablePool",
    "S.C85_cmd_addAuth",
    "S.C85_cmd_setBeneficiary",
    "S.C85_cmd_setRebAuth",
    "S.C85_cmd_disablePool",
    "S.C85_cmd_removeAuth",
    "S.C85_cmd_lstInput",
    "S.C85_cmd_removeLst",
    "S.C85_cmd_setCalc",
    "S.C85_cmd_addLst"
   ],
   "note": "Each builder of the client library and each administrative command: acceptance in an arbitrary reachable state implies that the same request against that state gives the same instruction."
  },
  {
   "property": "C86",
   "status": "proved",
   "theorems": [
    "S.C86_order",
    "S.C86_system"
   ],
   "note": "C86_order: any permutation of swaps and syncs that goes through leads to the same world (calculators and pricing programs answer by the request; a calculator the same whichever accounts it is passed). C86_system: the same for the deployed programs together, given that no LST has two usable stake pools with different figures."
  },
  {
   "property": "C87",
   "status": "proved",
   "theorems": [
    "S.C87_emptied",
    "S.C87_delist",
    "S.C87_delisting"
   ],
   "note": "C87_emptied: after a rebalance that leaves the reserves empty the LST is recorded at no value. C87_delist: any transaction that leaves an LST without value and reserves can be followed, in the same transaction, by the fee withdrawal and the removal. C87_delisting: both together."
  },
  {
   "property": "C88",
   "status": "proved",
   "theorems": [
    "S.C88_redeem",
    "S.C88_leave",
    "S.system_backed"
   ],
   "note": "C88_redeem: one LST, given that its reserves are worth the share. C88_leave: some LST of the pool can always pay for up to an n-th of the LP tokens. system_backed: the token-ledger hypothesis holds after histories in which foreign token programs mint and burn as they should."
  },
  {
   "property": "C89",
   "status": "proved",
   "theorems": [
    "S.C89_refresh_quote_execute"
   ],
   "note": "All four kinds of trade. Room for the trade (no u64 overflow; the program itself refuses a swap by which the pool would lose, which for exact-in swaps without withdrawal fees never happens: C54_exactIn_keeps) is a hypothesis stated on the cache the user has."
  },
  {
   "property": "C90",
   "status": "proved",
   "theorems": [
    "S.C90_isolated",
    "S.C90_system"
   ],
   "note": "C90_isolated: the controller with arbitrary other programs. C90_system: the programs of the repository together, with arbitrary stake pools."
  },
  {
   "property": "C91",
   "status": "proved",
   "theorems": [
    "S.C91_fee_ledger",
    "S.C91_exact",
    "S.C91_system"
   ],
   "note": "Programs called during trades are assumed to move no tokens of their own (shown for the programs of this repository in C91_system). The fee is left open when the value after the charge is 0 (no calculator of the repository lets such a trade pay anything)."
  },
  {
   "property": "C92",
   "status": "proved",
   "theorems": [
    "S.C92_leave_all",
    "S.C92_accounts",
    "S.C92_dust"
   ],
   "note": "The calculators are assumed to stay in working order while the holder leaves (same epoch, no upgrade); programs outside the repository called meanwhile move no tokens."
  },
  {
   "property": "C93",
   "status": "proved",
   "theorems": [
    "S.C93_rebalSol",
    "S.C93_rebalWithdrawSol",
    "S.C93_rebalStake",
    "S.C93_subsidy_sol",
    "S.C93_subsidy_stake",
    "S.C93_route",
    "S.C93_no_route",
    "S.C93_parse"
   ],
   "note": "Default program id; the amount is read before the transaction (the theorem evaluates StartRebalance in the state the command read)."
  },
  {
   "property": "C94",
   "status": "proved",
   "theorems": [
    "S.C94_quote",
    "S.C94_instruction",
    "S.C94_refreshed"
   ],
   "note": "An LST that is not on the Sanctum list is offered but never quoted (the library behaves that way)."
  },
  {
   "property": "C95",
   "status": "proved",
   "theorems": [
    "S.C95_rebalSol",
    "S.C95_rebalStake",
    "S.C95_rebalWithdrawSol"
   ],
   "note": ""
  },
  {
   "property": "C96",
   "status": "proved",
   "theorems": [
    "S.C96_pricing_arg",
    "S.C96_pricing",
    "S.C96_calc_arg",
    "S.C96_ask",
    "S.C96_seed",
    "S.C96_rebalStake"
   ],
   "note": "Base 58 decoding is a parameter; C96_ask assumes that the six program ids differ."
  },
  {
   "property": "C97",
   "status": "proved",
   "theorems": [
    "S.C97_same",
    "S.C97_sync",
    "S.C97_removeLst",
    "S.C97_setCalc",
    "S.C97_start",
    "S.C97_sync_wrong",
    "S.C97_removeLst_wrong",
    "S.C97_setCalc_wrong",
    "S.C97_start_wrong"
   ],
   "note": "StartRebalance: amounts below 2^64 (they are u64s)."
  },
  {
   "property": "C98",
   "status": "proved",
   "theorems": [
    "S.C98_swap",
    "S.C98_swap_back",
    "S.C98_lp"
   ],
   "note": "Fees below 100% together; a pool with LP tokens at the time of the deposit; the outside environment beyond the modelled programs is quiet."
  },
  {
   "property": "C99",
   "status": "proved",
   "theorems": [
    "S.C99_symmetric",
    "S.C99_round_trip",
    "S.C99_wsol"
   ],
   "note": "C99_round_trip: for stake pools with tokens and lamports (Usable)."
  },
  {
   "property": "C100",
   "status": "proved",
   "theorems": [
    "S.C100_deposit",
    "S.C100_full",
    "S.C100_system"
   ],
   "note": "The called programs change no token account (Env.Quiet); C100_full and C100_system: the LP mint is not the deposited LST."
  },
  {
   "property": "C101",
   "status": "proved",
   "theorems": [
    "S.C101_flat_writable",
    "S.C101_flat_addLst",
    "S.C101_flat_removeLst",
    "S.C101_flat_initialize",
    "S.C101_flat_others",
    "S.C101_flat_takes",
    "S.C101_flat_conserves",
    "S.C101_flat_exempt",
    "S.C101_calc_writable",
    "S.C101_calc_init",
    "S.C101_calc_others",
    "S.C101_calc_takes",
    "S.C101_calc_conserves",
    "S.C101_calc_exempt"
   ],
   "note": "The programs' own addresses do not sign (PDAs), and fee accounts have addresses other than the state's."
  },
  {
   "property": "C102",
   "status": "proved",
   "theorems": [
    "S.C102_cache",
    "S.C102_refused",
    "S.C102_solPool",
    "S.C102_moved",
    "S.C102_asked"
   ],
   "note": "Assumes the calculators and stake pools of the listed LSTs are in working order (Sys.InOrder), the Sanctum list is right (ListRight) and the chain is the same at both requests."
  },
  {
   "property": "C103",
   "status": "proved",
   "theorems": [
    "S.C103_admin",
    "S.C103_terms_in",
    "S.C103_terms_out",
    "S.C103_beneficiary",
    "S.C103_rebalance",
    "S.C103_disable",
    "S.C103_initial",
    "S.C103_public",
    "S.C103_flat_manager",
    "S.C103_calc_manager"
   ],
   "note": "For the rebalance authority, the disable authorities: the admin must not sign either, because it can replace them."
  },
  {
   "property": "C104",
   "status": "proved",
   "theorems": [
    "S.C104_rebalSol",
    "S.C104_rebalStake",
    "S.C104_rebalWithdrawSol"
   ],
   "note": "Assumes the calculators and stake pools of the listed LSTs are in working order, the Sanctum list is right, and the other instructions of the transaction deliver what was quoted (Chances)."
  },
  {
   "property": "C105",
   "status": "proved",
   "theorems": [
    "S.C105_open",
    "S.C105_leave"
   ],
   "note": "Assumes, as C88, that the calculator of the LST and the pricing program work when the holder leaves."
  },
  {
   "property": "C106",
   "status": "proved",
   "theorems": [
    "S.C106_sync",
    "S.C106_swapExactIn",
    "S.C106_swapExactOut",
    "S.C106_addLiquidity",
    "S.C106_removeLiquidity",
    "S.C106_admin",
    "S.C106_start",
    "S.C106_poolCmds",
    "S.C106_authCmds",
    "S.C106_setup",
    "S.C106_withdraw",
    "S.C106_flat",
    "S.C106_batch",
    "S.C106_calc",
    "S.C106_ask"
   ],
   "note": "Default program id. The accounts given by the caller for calculators and the pricing program keep the flags they were given."
  }
 ]
}