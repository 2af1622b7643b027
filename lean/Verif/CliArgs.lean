import Verif.CliRoute
import Verif.CalcCli
import Verif.AdminCli

set_option autoImplicit false

/-!
The arguments of the command line tools that name programs, and the seed of the stake account of `rebal-stake`. `key` is `Pubkey::from_str` (base 58, not in /repo).
-/

namespace S

/-- `PricingProgArg`, cli/s-controller/src/pricing_prog_arg.rs:7-11. -/
inductive PricingArg
  | flatFee
  | unknown (program : Pubkey)
deriving DecidableEq, Repr

/-- `PricingProgArg::parse_arg`, pricing_prog_arg.rs:14-20. -/
def PricingArg.parse (key : String → Option Pubkey) (arg : String) : R PricingArg :=
  if arg = "flat-fee" then .ok .flatFee else do
    let k ← okOr (key arg) .panic
    pure (.unknown k)

/-- `PricingProgArg::program_id`, pricing_prog_arg.rs:22-27. -/
def PricingArg.programId (J : JupCfg) : PricingArg → Pubkey
  | .flatFee => J.fc.programId
  | .unknown k => k

/-- `SetPricingProgArgs::run`, subcmd/set_pricing_prog.rs:32-82, from the argument as typed. -/
def cmdSetPricing (J : JupCfg) (key : String → Option Pubkey) (w : World) (signer : Pubkey) (arg : String) : R TopIx := do
  let a ← PricingArg.parse key arg
  AdminCli.setPricing J.cfg w signer (a.programId J)

/-- `SolValCalcArg`, cli/generic-pool-calculator/src/sol_val_calc_arg.rs:8-17. -/
inductive CalcArg
  | lido
  | marinade
  | spl (kind : SplKind)
  | wsol
  | unknown (program : Pubkey)
deriving DecidableEq, Repr

/-- `SolValCalcArg::program_id`, sol_val_calc_arg.rs:51-61. -/
def CalcArg.programId (J : JupCfg) : CalcArg → Pubkey
  | .lido => J.lido.programId
  | .marinade => J.marinade.programId
  | .spl k => (J.spl k).programId
  | .wsol => J.wsolProgram
  | .unknown k => k

/-- The match on a key, sol_val_calc_arg.rs:38-46. -/
def CalcArg.ofKey (J : JupCfg) (k : Pubkey) : CalcArg :=
  if k = J.lido.programId then .lido
  else if k = J.marinade.programId then .marinade
  else if k = (J.spl .sanctumSpl).programId then .spl .sanctumSpl
  else if k = (J.spl .sanctumSplMulti).programId then .spl .sanctumSplMulti
  else if k = (J.spl .spl).programId then .spl .spl
  else if k = J.wsolProgram then .wsol
  else .unknown k

/-- `SolValCalcArg::parse_arg`, sol_val_calc_arg.rs:28-49. -/
def CalcArg.parse (J : JupCfg) (key : String → Option Pubkey) (arg : String) : R CalcArg :=
  if arg = "lido" then .ok .lido
  else if arg = "marinade" then .ok .marinade
  else if arg = "sanctum-spl" then .ok (.spl .sanctumSpl)
  else if arg = "sanctum-spl-multi" then .ok (.spl .sanctumSplMulti)
  else if arg = "spl" then .ok (.spl .spl)
  else if arg = "wsol" then .ok .wsol
  else do
    let k ← okOr (key arg) .panic
    pure (.ofKey J k)

/-- `lst-to-sol` and `sol-to-lst` for whichever program is named, subcmd/lst_to_sol.rs:35-70, subcmd/sol_to_lst.rs:35-70, subcmd/common.rs:38-104: a program that
is not known is refused, the SPL programs need `--pool`. `st` holds the states of the calculators by program. -/
def cmdAskAny (J : JupCfg) (L : RatioLib) (ch : OnChain) (st : Pubkey → Option CalcState) (pool : Option Pubkey) (q : CalcReq) : CalcArg → R Range
  | .lido => cmdAsk L J.lido ch (st J.lido.programId) 0 q
  | .marinade => cmdAsk L J.marinade ch (st J.marinade.programId) 0 q
  | .spl k => do
    let pool ← okOr pool .panic
    cmdAsk L (J.spl k) ch (st (J.spl k).programId) pool q
  | .wsol => wsolInstruction J.wsolProgram J.wsolMint J.wsolProgram [roMeta J.wsolMint] (match q with
    | .lstToSol n => (CalcIx.lstToSol n).encode
    | .solToLst n => (CalcIx.solToLst n).encode)
  | .unknown _ => .error .panic

/-- The loop of `find_unused_stake_prog_create_with_seed`, cli/s-controller/src/rpc.rs:108-119: the first of the seeds whose address is free. `addr` is
`Pubkey::create_with_seed` for the stake program, `taken` tells whether an account exists. -/
def firstFree (addr : Pubkey → String → Pubkey) (taken : Pubkey → Bool) (base : Pubkey) : List Nat → R (Pubkey × String)
  | [] => .error .panic
  | n :: rest => if taken (addr base (toString n)) then firstFree addr taken base rest else .ok (addr base (toString n), toString n)

/-- `find_unused_stake_prog_create_with_seed`, rpc.rs:101-121: the seeds are `0..9`, without 9. -/
def unusedStake (addr : Pubkey → String → Pubkey) (taken : Pubkey → Bool) (base : Pubkey) : R (Pubkey × String) :=
  firstFree addr taken base (List.range 9)

/-- `RebalStakeArgs::run`, subcmd/rebal_stake.rs:78-393, looking for the stake account itself (line 310). -/
def rebalStakeRun (J : JupCfg) (L : RatioLib) (S : SPool) (auth wallet : Pubkey) (a b : SanctumLst) (arg : AmtArg) (r : StakeRoute)
    (fetch : Pubkey → Option TokenAcc) (addr : Pubkey → String → Pubkey) (taken : Pubkey → Bool) : R (List CliIx) := do
  let (bridge, _) ← unusedStake addr taken wallet
  rebalStakeCmd J L S auth wallet a b arg r fetch bridge

end S
