import Verif.Base
import Verif.Ratio
import Verif.Calc
import Verif.Calculators
import Verif.World
import Verif.Controller.Verify
import Verif.Controller.User
import Verif.Controller.Admin
import Verif.Controller.Rebalance
import Verif.IxData
import Verif.Tx
import Verif.Proofs.Small
import Verif.Proofs.UserRuns
import Verif.Proofs.AdminRuns
import Verif.Proofs.Trace
import Verif.Proofs.CtlStep
import Verif.Proofs.Ledger
import Verif.History
import Verif.PureEnv
import Verif.Example
import Verif.Proofs.History
import Verif.Props.Data
import Verif.Props.Invariants
import Verif.Props.Rebalance
import Verif.Props.Authority
import Verif.Props.Lists
import Verif.Props.Value
import Verif.Props.Custody
import Verif.Props.Conservation
import Verif.Props.Movements
import Verif.Props.Supply
import Verif.Proofs.Arith
import Verif.Proofs.CalcConv
import Verif.FlatFee.Calc
import Verif.Props.Conversions
import Verif.Proofs.CalcLaws
import Verif.Props.Rates
import Verif.Props.Trades
import Verif.Props.Sync
import Verif.Props.InputFlag
import Verif.FlatFee.Program
import Verif.Props.FlatFee
import Verif.Layout
import Verif.CalcPrograms
import Verif.Fixtures
import Verif.Props.CalcPrograms
import Verif.Serde
import Verif.Props.Serde
import Verif.Props.Stored
import Verif.Client
import Verif.Proofs.Client
import Verif.Props.Client
import Verif.Props.Lookup
import Verif.Jup
import Verif.JupExample
import Verif.Props.JupCache
import Verif.Props.JupQuote
import Verif.Props.JupSwap
import Verif.Props.LpPrice
import Verif.Props.NoProfit
import Verif.Props.JupRefresh
import Verif.Proofs.Live
import Verif.Proofs.LiveCalc
import Verif.Proofs.LiveRun
import Verif.Props.JupLive
import Verif.Props.Recorded
import Verif.Cli
import Verif.Proofs.RebalLive
import Verif.Props.CliRebalance
import Verif.Props.CliSync
import Verif.FlatFee.Client
import Verif.Props.FlatCli
import Verif.Props.FlatCliView
import Verif.CalcCli
import Verif.Props.CalcCli
import Verif.AdminCli
import Verif.Props.Canonical
import Verif.Props.AdminCli
import Verif.Lamports
import Verif.Props.Lamports
import Verif.Props.Privileges
import Verif.System
import Verif.Proofs.System
import Verif.Props.System
import Verif.Props.RebalanceMoves
import Verif.Props.Exit
import Verif.Props.Payout
import Verif.Props.CliSyncOne
import Verif.Props.CliView
import Verif.Props.FairValue
import Verif.Props.JupFees
import Verif.Props.Slippage
import Verif.Props.Impact
import Verif.Props.RedeemLater
import Verif.Props.JupCurrent
import Verif.Props.Subsidy
import Verif.Wire
import Verif.Proofs.EnvCongr
import Verif.Props.Wire
import Verif.Props.DepositWorth
import Verif.Props.Stale
import Verif.Props.Order
import Verif.Props.OrderSystem
import Verif.Props.Delist
import Verif.Proofs.SysLive
import Verif.Props.Deployed
import Verif.Proofs.JupEffect
import Verif.Props.JupSystem
import Verif.Props.Isolation
import Verif.Props.FeeLedger
import Verif.Props.LeaveAll
import Verif.CliRoute
import Verif.Props.CliRoute
import Verif.Props.JupMints
import Verif.CliArgs
import Verif.Props.CliArgs
import Verif.ForProg
import Verif.Props.ForProg
import Verif.Props.TimeArb
import Verif.Props.Symmetric
import Verif.Props.Inflation
import Verif.Props.ProgLamports
import Verif.Props.CliFetch
import Verif.Props.KeysSafe
import Verif.Props.CliFetchRun
import Verif.Props.KeysSafeLeave
import Verif.Props.LeastPriv
