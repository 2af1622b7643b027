import Verif.FlatFee.Program
import Verif.Client
/-
The command-line tool of the flat-fee program's manager: cli/pricing-programs/flat-fee/src/subcmd, with the account resolvers of
libs/pricing-programs/flat-fee-lib/src/account_resolvers and the account metas of generated/pricing-programs/flat_fee_interface/src/instructions.rs.
`F` is the program's accounts as fetched; `signer` is the manager's key as given to the command. Compute-budget instructions, fee estimation and
sending are not modelled. Only the default program id is modelled (as for the other client code).
-/
set_option autoImplicit false
namespace S

/-- `verify_manager` after `try_program_state` on the fetched account, cli/pricing-programs/flat-fee/src/subcmd/common.rs:13-22. (A missing account and a
wrong manager end the command.) -/
def fetchManaged (F : FlatFee) (signer : Pubkey) : R FlatState := do
  let s ← okOr F.state .panic
  require (s.manager = signer) .panic
  pure s

/-- The `set_lst_fee` instruction: `SetLstFeeByMintFreeArgs::resolve_inner` (account_resolvers/set_lst_fee.rs:35-65) gives the keys,
`From<SetLstFeeKeys>` (instructions.rs:1062-1081) the metas. -/
def setLstFeeIx (fc : FlatCfg) (manager feeAcc : Pubkey) (i o : Int) : TopIx :=
  ⟨fc.programId, [sgMeta manager, wrMeta feeAcc, roMeta fc.stateId], (FlatIx.setLstFee i o).encode⟩

/-- `SetLstFeeArgs::run`, subcmd/set_lst_fee.rs:37-92. -/
def cmdSetLstFee (fc : FlatCfg) (F : FlatFee) (signer mint : Pubkey) (i o : Int) : R (List TopIx) := do
  let s ← fetchManaged F signer
  pure [setLstFeeIx fc s.manager (fc.findFee mint).1 i o]

/-- `AddLstArgs::run`, subcmd/add_lst.rs:36-93, with account_resolvers/add_lst.rs:37-71 and instructions.rs:1507-1541. -/
def cmdAddLst (fc : FlatCfg) (F : FlatFee) (signer payer mint : Pubkey) (i o : Int) : R (List TopIx) := do
  let s ← fetchManaged F signer
  pure [⟨fc.programId, [sgMeta s.manager, ⟨payer, true, true⟩, wrMeta (fc.findFee mint).1, roMeta mint, roMeta fc.stateId, roMeta fc.systemProgram],
    (FlatIx.addLst i o).encode⟩]

/-- `RemoveLstArgs::run`, subcmd/remove_lst.rs:33-86, with account_resolvers/remove_lst.rs:31-63 and instructions.rs:1283-1312. -/
def cmdRemoveLst (fc : FlatCfg) (F : FlatFee) (signer refund mint : Pubkey) : R (List TopIx) := do
  let s ← fetchManaged F signer
  pure [⟨fc.programId, [sgMeta s.manager, wrMeta refund, wrMeta (fc.findFee mint).1, roMeta mint, roMeta fc.stateId], FlatIx.removeLst.encode⟩]

/-- `SetManagerArgs::run`, subcmd/set_manager.rs:23-67, with instructions.rs:1740-1759. -/
def cmdSetManager (fc : FlatCfg) (F : FlatFee) (signer new : Pubkey) : R (List TopIx) := do
  let s ← fetchManaged F signer
  pure [⟨fc.programId, [sgMeta s.manager, roMeta new, wrMeta fc.stateId], FlatIx.setManager.encode⟩]

/-- `SetLpWithdrawalFeeArgs::run`, subcmd/set_lp_withdrawal_fee.rs:28-76, with account_resolvers/set_lp_withdrawal_fee.rs:28-41 and
instructions.rs:861-875. -/
def cmdSetLpFee (fc : FlatCfg) (F : FlatFee) (signer : Pubkey) (bps : Nat) : R (List TopIx) := do
  let s ← fetchManaged F signer
  pure [⟨fc.programId, [sgMeta s.manager, wrMeta fc.stateId], (FlatIx.setLpWithdrawalFee bps).encode⟩]

/-- `InitializeArgs::run`, subcmd/initialize.rs, with account_resolvers/initialize.rs:21-29 and instructions.rs:1931-1950. -/
def cmdInitialize (fc : FlatCfg) (payer : Pubkey) : List TopIx :=
  [⟨fc.programId, [⟨payer, true, true⟩, wrMeta fc.stateId, roMeta fc.systemProgram], FlatIx.initialize.encode⟩]

/-- The data of an account of the program, as `try_program_state` and `try_fee_account` (34 and 6 bytes) tell them apart. -/
inductive FlatData
  | state (s : FlatState)
  | fee (f : FeeAccount)
deriving DecidableEq

/-- `try_fee_account(..).unwrap()`, subcmd/batch_set_fees.rs:82. -/
def FlatData.asFee : FlatData → R FeeAccount
  | .fee f => .ok f
  | .state _ => .error .panic

/-- `try_program_state(..).unwrap()`, subcmd/batch_set_fees.rs:79. -/
def FlatData.asState : FlatData → R FlatState
  | .state s => .ok s
  | .fee _ => .error .panic

/-- `BatchSetFeesArgs::run`, subcmd/batch_set_fees.rs:37-121, on the answer `accs` to `get_program_accounts`. Produces the instructions of the transaction
(`Vec::remove` of the state account, `retain` and `map` over the others). -/
def cmdBatchSetFees (fc : FlatCfg) (accs : List (Pubkey × FlatData)) (i o : Int) : R (List TopIx) := do
  let st ← okOr (accs.find? fun x => x.1 = fc.stateId) .panic
  let s ← st.2.asState
  let fees ← (accs.eraseIdx (accs.findIdx fun x => x.1 = fc.stateId)).mapM fun x => do
    let f ← x.2.asFee
    pure (x.1, f)
  pure ((fees.filter fun x => x.2.inputFeeBps ≠ i ∨ x.2.outputFeeBps ≠ o).map fun x => setLstFeeIx fc s.manager x.1 i o)

/-- A transaction of flat-fee instructions: all or nothing. `accs` of each call is what the program sees. -/
def runFlatTx (L : RatioLib) {fc : FlatCfg} (F : FlatFee) : List (FlatCall fc) → R FlatFee
  | [] => .ok F
  | c :: cs => do
    let (F', _) ← flatInstruction L c.view F fc.programId c.accs c.data
    runFlatTx L F' cs

/-! ### Commands that only read -/

/-- `handle_pricing_ix`, subcmd/common.rs:24-57: the instruction is simulated; without an error the eight bytes of return data are printed as a number.
(An error is printed and the command ends. The compute-budget instructions of the simulated transaction have no effect on the program. The printed number
is in SOL, `lamports_to_sol`: decimal formatting is not modelled.) -/
def simulatePrice (L : RatioLib) {fc : FlatCfg} (v : FlatView fc) (F : FlatFee) (ix : TopIx) : R Nat := do
  let (_, r) ← flatInstruction L v F ix.program ix.accs ix.data
  okOr r .panic

/-- `PriceExactInArgs::run`, subcmd/price_exact_in.rs:43-89, with instructions.rs:147-171. Amounts are lamports (the command line takes decimals:
`sol_to_lamports`). -/
def cmdPriceExactIn (L : RatioLib) {fc : FlatCfg} (v : FlatView fc) (F : FlatFee) (input output : Pubkey) (amount solValue : Nat) : R Nat :=
  simulatePrice L v F ⟨fc.programId, [roMeta input, roMeta output, roMeta (fc.findFee input).1, roMeta (fc.findFee output).1],
    (FlatIx.priceExactIn amount solValue).encode⟩

/-- `PriceExactOutArgs::run`, subcmd/price_exact_out.rs:43-91, with instructions.rs:348-372. -/
def cmdPriceExactOut (L : RatioLib) {fc : FlatCfg} (v : FlatView fc) (F : FlatFee) (input output : Pubkey) (amount solValue : Nat) : R Nat :=
  simulatePrice L v F ⟨fc.programId, [roMeta input, roMeta output, roMeta (fc.findFee input).1, roMeta (fc.findFee output).1],
    (FlatIx.priceExactOut amount solValue).encode⟩

/-- `PriceLpTokensToMintArgs::run`, subcmd/price_lp_tokens_to_mint.rs:37-67, with instructions.rs:534-543. -/
def cmdPriceMint (L : RatioLib) {fc : FlatCfg} (v : FlatView fc) (F : FlatFee) (mint : Pubkey) (amount solValue : Nat) : R Nat :=
  simulatePrice L v F ⟨fc.programId, [roMeta mint], (FlatIx.priceLpTokensToMint amount solValue).encode⟩

/-- `PriceLpTokensToRedeemArgs::run`, subcmd/price_lp_tokens_to_redeem.rs:40-73, with instructions.rs:692-706. -/
def cmdPriceRedeem (L : RatioLib) {fc : FlatCfg} (v : FlatView fc) (F : FlatFee) (mint : Pubkey) (amount solValue : Nat) : R Nat :=
  simulatePrice L v F ⟨fc.programId, [roMeta mint, roMeta fc.stateId], (FlatIx.priceLpTokensToRedeem amount solValue).encode⟩

/-- `ViewLstArgs::run`, subcmd/view_lst.rs:16-38: the fee account printed. -/
def cmdViewFees (fc : FlatCfg) (F : FlatFee) (mint : Pubkey) : R FeeAccount := okOr (F.fees (fc.findFee mint).1) .panic

/-- `HashMap` of the fee accounts of the listed LSTs, subcmd/view.rs:34-48: `collect` keeps the last entry with a key. `list` is sanctum-lst-list as pairs
of symbol and mint. -/
def pdaToSymbol (fc : FlatCfg) (list : List (String × Pubkey)) (k : Pubkey) : Option String :=
  ((list.reverse).find? fun e => (fc.findFee e.2).1 = k).map Prod.fst

/-- One entry printed by the view command: `none` is "Unknown LST". -/
structure FeeLine where
  symbol : Option String
  pda : Pubkey
  fees : FeeAccount
deriving DecidableEq

/-- The first loop of subcmd/view.rs:51-60: `retain` prints the state account and drops it. -/
def takeStates (fc : FlatCfg) : List (Pubkey × FlatData) → R (List FlatState × List (Pubkey × FlatData))
  | [] => .ok ([], [])
  | x :: xs => if x.1 = fc.stateId then do
      let s ← x.2.asState
      let (ss, rest) ← takeStates fc xs
      pure (s :: ss, rest)
    else do
      let (ss, rest) ← takeStates fc xs
      pure (ss, x :: rest)

/-- `ViewArgs::run`, subcmd/view.rs:20-70, on the answer `accs` to `get_program_accounts`: the states printed, the fee accounts printed and the count
printed last. -/
def cmdViewFlat (fc : FlatCfg) (list : List (String × Pubkey)) (accs : List (Pubkey × FlatData)) : R (List FlatState × List FeeLine × Nat) := do
  let (ss, rest) ← takeStates fc accs
  let lines ← rest.mapM fun x => do
    let f ← x.2.asFee
    pure ⟨pdaToSymbol fc list x.1, x.1, f⟩
  pure (ss, lines, rest.length)

/-- Instructions for the address lookup table program, as used by subcmd/create_lut.rs. -/
inductive LutIx
  | create
  | extend (keys : List Pubkey)
deriving DecidableEq

/-- `slice::chunks(MAX_ACCS_PER_EXTEND_LUT)`, subcmd/create_lut.rs:19, 84. -/
def chunks27 (l : List Pubkey) : List (List Pubkey) :=
  if l = [] then [] else l.take 27 :: chunks27 (l.drop 27)
termination_by l.length
decreasing_by
  rename_i h
  have := List.length_pos_iff.2 h
  rw [List.length_drop]; omega

/-- The loop of subcmd/create_lut.rs:84-99: the transactions sent. `pending` is `this_batch_ixs`. -/
def lutTxs : List LutIx → List (List Pubkey) → List (List LutIx)
  | _, [] => []
  | pending, b :: bs => (pending ++ [.extend b]) :: lutTxs [] bs

/-- `CreateLutArgs::run`, subcmd/create_lut.rs:34-100: the transactions. `given` says whether a table's address was given; `table` is the table at the
address used, if it exists; `accs` is the answer to `get_program_accounts`. -/
def cmdCreateLut (given : Bool) (table : Option (List Pubkey)) (accs : List (Pubkey × FlatData)) : List (List LutIx) :=
  let existing := table.getD []
  let toExtend := (accs.map Prod.fst).filter fun k => ¬ k ∈ existing
  lutTxs (if given then [] else [.create]) (chunks27 toExtend)

/-- The address lookup table program (not in the repository): creating makes an empty table, extending appends, needs a table and at least one key, and fails
above 256 keys. (`create_lookup_table` fails if the table exists.) -/
def LutIx.run : Option (List Pubkey) → LutIx → R (Option (List Pubkey))
  | none, .create => .ok (some [])
  | some _, .create => .error .system
  | none, .extend _ => .error .system
  | some t, .extend ks => do
    require (ks ≠ [] ∧ t.length + ks.length ≤ 256) .system
    pure (some (t ++ ks))

/-- The transactions one after the other. -/
def runLut (table : Option (List Pubkey)) (txs : List (List LutIx)) : R (Option (List Pubkey)) :=
  txs.foldlM (fun t tx => tx.foldlM LutIx.run t) table

end S
