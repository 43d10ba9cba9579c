import Verif.Contract
import Verif.Query
import Verif.Liquidity
import Verif.Sdk
import Verif.Ledger
import Verif.Lemmas.Monad
import Verif.Lemmas.KV
import Verif.Lemmas.Keys
import Verif.Lemmas.Inv
import Verif.Lemmas.SwapInv
import Verif.Spec
import Verif.Lemmas.PoolEvo
import Verif.Examples
import Verif.Lemmas.Positions
import Verif.Props.Access
import Verif.Lemmas.Fees
import Verif.Lemmas.Micro
import Verif.Lemmas.PosInv
import Verif.Lemmas.Struct
import Verif.Props.Pools
import Verif.Props.Keys
import Verif.Lemmas.PosOps
import Verif.Lemmas.Frame
import Verif.Props.Positions
import Verif.Lemmas.TickSum
import Verif.Lemmas.Bitmap
import Verif.Lemmas.Search
import Verif.Lemmas.Count
import Verif.Props.Ticks
import Verif.Lemmas.Amounts
import Verif.Lemmas.Ledger
import Verif.Lemmas.OpenClose
import Verif.Exact
import Verif.Lemmas.ExactLemmas
import Verif.Props.Amounts
import Verif.Lemmas.TickPrice
import Verif.Lemmas.LogPrice
import Verif.Lemmas.LogApprox
import Verif.Lemmas.TickOfPrice
import Verif.Props.TickPrice
import Verif.Lemmas.Step
import Verif.Lemmas.StepDir
import Verif.Lemmas.Iter
import Verif.Lemmas.Price
import Verif.Lemmas.SwapTotals
import Verif.Props.Swap
import Verif.Props.SwapStep
import Verif.Lemmas.Quiet
import Verif.Lemmas.Active
import Verif.Props.Active
import Verif.Lemmas.Cap
import Verif.Lemmas.Avoid
import Verif.Props.Cap
import Verif.FeeSpec
import Verif.Lemmas.FeeInside
import Verif.Solvency
import Verif.Lemmas.Principal
import Verif.Lemmas.SwapBooks
import Verif.Lemmas.Owes
import Verif.Lemmas.Tokens
import Verif.Lemmas.PoolSteps
import Verif.Lemmas.Solvent
import Verif.FeeHistory
import Verif.Lemmas.FeeBooks
import Verif.WorldExamples
import Verif.Props.Solvency
import Verif.Props.Fees
import Verif.Lemmas.Liveness
import Verif.Props.Liveness
import Verif.Lemmas.Quote
import Verif.Props.Quote
import Verif.Lemmas.Deposit
import Verif.Props.Deposit
import Verif.Props.Funds
import Verif.Lemmas.Tickmap
import Verif.Lemmas.Sim
import Verif.Props.Tickmap
import Verif.Props.Sim
import Verif.Lemmas.Page
import Verif.Props.Listings
import Verif.Lemmas.ProtoFee
import Verif.Props.ProtoFee
import Verif.Lemmas.ExactOut
import Verif.Props.ExactOut
import Verif.TradeSpec
import Verif.Lemmas.RoundTrip
import Verif.Props.RoundTrip
import Verif.Client
import Verif.Props.Client
import Verif.Lemmas.Rate
import Verif.Props.Rate
import Verif.Decimal
import Verif.Lemmas.Decimal
import Verif.Lemmas.Literal
import Verif.Lemmas.LiteralTick
import Verif.Props.Decimal
import Verif.Props.Literal
import Verif.Props.Nft
import Verif.Lemmas.Mono
import Verif.Props.Mono
import Verif.Lemmas.Rel
import Verif.Lemmas.RelStore
import Verif.Lemmas.RelExec
import Verif.Props.Local
import Verif.Lemmas.Accept
import Verif.Props.Accept
import Verif.Clock
import Verif.Lemmas.Clock
import Verif.Props.Clock
import Verif.Events
import Verif.Lemmas.Events
import Verif.Props.Events
import Verif.Raw
import Verif.Lemmas.Raw
import Verif.Props.Raw
import Verif.Shares
import Verif.Lemmas.Shares
import Verif.Props.Shares
import Verif.Lemmas.Impact
import Verif.Props.Impact
import Verif.Lemmas.Refuse
import Verif.Props.Refuse
import Verif.Party
import Verif.Lemmas.Party
import Verif.Props.Party
import Verif.AdminSpec
import Verif.Props.Admin
import Verif.AccountSpec
import Verif.Lemmas.Accounts
import Verif.Props.Accounts
import Verif.RecordSpec
import Verif.Lemmas.Record
import Verif.Props.Record
import Verif.Props.Show
import Verif.Lemmas.Split
import Verif.Lemmas.SplitCalls
import Verif.Props.Split
import Verif.TraceSpec
import Verif.Lemmas.Trace
import Verif.Props.Trace
import Verif.Lemmas.Commute
import Verif.Props.Commute
import Verif.PayoutSpec
import Verif.Lemmas.Payout
import Verif.Props.Payout
import Verif.Props.Permit
import Verif.Props.FeeRate
import Verif.Props.ClientChecks
import Verif.OfferSpec
import Verif.Lemmas.Offer
import Verif.Lemmas.RefuseOut
import Verif.Props.RefuseOut
import Verif.RouteSpec
import Verif.Lemmas.Route
import Verif.Props.Route
import Verif.SafeSpec
import Verif.Lemmas.Safe
import Verif.Props.Safe
import Verif.KeepSpec
import Verif.Lemmas.Keep
import Verif.Props.Keep
import Verif.CurveSpec
import Verif.Lemmas.Curve
import Verif.Props.Curve
import Verif.TimeWeight
import Verif.TimeSpec
import Verif.Lemmas.TimeWeight
import Verif.Props.TimeWeight
import Verif.ReadSpec
import Verif.Lemmas.Read
import Verif.Props.Read
import Verif.OperatorSpec
import Verif.Props.Operators
import Verif.WorkSpec
import Verif.Lemmas.Work
import Verif.Props.Work
import Verif.Lemmas.ClaimFirst
import Verif.Props.ClaimFirst
import Verif.HandoverSpec
import Verif.Lemmas.Handover
import Verif.Props.Handover
import Verif.StrategySpec
import Verif.Lemmas.Strategy
import Verif.Props.Strategy
import Verif.ExitSpec
import Verif.Props.Batch
import Verif.Lemmas.Exits
import Verif.Props.Exits
import Verif.HostileSpec
import Verif.Lemmas.Hostile
import Verif.Props.Hostile
import Verif.Tests.Arithmetic
import Verif.Tests.Storage
import Verif.Tests.App
import Verif.Tests.Swaps
import Verif.Tests.Positions
import Verif.Tests.Large
import Verif.Props.Neutral
import Verif.Props.Limit
import Verif.Lemmas.Arbitrage
import Verif.Props.Arbitrage
import Verif.Props.RangeOrder
import Verif.Props.Adjacent
import Verif.Props.Dividing
import Verif.PartsSpec
import Verif.Lemmas.Parts
import Verif.Props.Depth
import Verif.Lemmas.Balance
import Verif.Props.Owed
import Verif.Lemmas.Return
import Verif.Props.Return
import Verif.Props.Leaving
import Verif.Props.Bounds
import Verif.Lemmas.Grow
import Verif.Props.Grow
import Verif.Props.Holding
import Verif.Props.Sandwich
import Verif.Props.SandwichDeposit
import Verif.Props.Withdraw
