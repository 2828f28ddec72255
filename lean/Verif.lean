import Verif.Base
import Verif.Model.Math
import Verif.Model.Storage
import Verif.Model.Tickmap
import Verif.Model.State
import Verif.Model.Service
import Verif.Props.Price
import Verif.Props.Amounts
import Verif.Props.Deposit
import Verif.Props.Step
import Verif.Model.Casts
import Verif.Props.Casts
import Verif.Props.Fees
import Verif.Props.Tickmap
import Verif.Props.Collections
import Verif.Proofs.TickInv
import Verif.Props.Authority
import Verif.Props.SwapCall
import Verif.Props.PositionCalls
import Verif.Spec.Book
import Verif.Props.Exploit
import Verif.Props.Lookup
import Verif.Props.PriceTick
import Verif.Props.Ledger
import Verif.Props.Active
import Verif.Props.Terminate
import Verif.Props.Rollback
import Verif.Props.Async
import Verif.Props.Withdraw
import Verif.Props.Vara
import Verif.Props.Vft
import Verif.Props.LiquidityResult
import Verif.Props.ProtocolFee
import Verif.Props.ThinLiquidity
import Verif.Props.Sdk
import Verif.Props.Exit
import Verif.Spec.Solvent
import Verif.Spec.Accrued
import Verif.Proofs.SwapMove
import Verif.Proofs.SwapFees
import Verif.Proofs.Worth
import Verif.Proofs.SwapWorth
import Verif.Proofs.Solvent
import Verif.Props.Solvent
import Verif.Props.ClaimFees
import Verif.Model.Queries
import Verif.Spec.Queries
import Verif.Proofs.Queries
import Verif.Props.Queries
import Verif.Props.Chart
import Verif.Model.SdkUtils
import Verif.Proofs.SdkUtils
import Verif.Props.SdkPrices
import Verif.Props.SdkPreview
import Verif.Proofs.SdkFilter
import Verif.Props.SdkFilter
import Verif.Props.SdkSlippage
import Verif.Props.Codec
import Verif.Proofs.LedgerAll
import Verif.Proofs.Accept
import Verif.Props.Accept
import Verif.Props.Wrap
import Verif.Props.Events
import Verif.Props.Decimal
import Verif.Props.Names
import Verif.Proofs.Claim
import Verif.Props.ClaimAccept
import Verif.Spec.Tie
import Verif.Proofs.StepAccept
import Verif.Proofs.SwapAccept
import Verif.Props.SwapAccept
import Verif.Proofs.StepAcceptOut
import Verif.Proofs.SwapAcceptOut
import Verif.Props.SwapOutAccept
import Verif.Props.Requests
import Verif.Spec.Clock
import Verif.Proofs.Clock
import Verif.Props.Clock
import Verif.Model.SecondsPerLiquidity
import Verif.Props.SecondsPerLiquidity
import Verif.Props.CreatePool
import Verif.Props.Answers
import Verif.Props.Trades
import Verif.Props.Paid
import Verif.Props.AvgPrice
import Verif.Props.Wasm
import Verif.Props.Paging
import Verif.Props.Coins
import Verif.Props.Provider
import Verif.Props.More
import Verif.Props.PriceLimit
import Verif.Props.Share
import Verif.Props.Alike
import Verif.Props.Apart
import Verif.Props.Unseen
import Verif.Props.Parts
import Verif.Proofs.Pump
import Verif.Props.Pump
import Verif.Spec.Split
import Verif.Proofs.Split
import Verif.Props.Split
import Verif.Proofs.SplitOut
import Verif.Props.SplitOut
import Verif.Spec.Quiet
import Verif.Props.Quiet
import Verif.Spec.Aside
import Verif.Props.Aside
import Verif.Props.Storage
import Verif.Spec.Market
import Verif.Proofs.Market
import Verif.Props.Market
import Verif.Spec.Cheaper
import Verif.Proofs.CheapStep
import Verif.Proofs.CheapSwap
import Verif.Props.Cheaper
import Verif.Proofs.TwinStep
import Verif.Proofs.TwinSwap
import Verif.Props.Twin
import Verif.Spec.Traceless
import Verif.Proofs.Traceless
import Verif.Props.Traceless
import Verif.Spec.Whole
import Verif.Proofs.Whole
import Verif.Props.Whole
import Verif.Proofs.Nearer
import Verif.Props.Nearer
import Verif.Proofs.AvgOut
import Verif.Props.Slippage
import Verif.Props.Holder
import Verif.Proofs.StartPrice
import Verif.Props.Later
import Verif.Props.Credited
import Verif.Proofs.Stuck
import Verif.Proofs.Metered
import Verif.Props.Stuck
import Verif.Tests.Clamm
import Verif.Tests.Types
import Verif.Tests.Storage
import Verif.Tests.Contract
import Verif.Tests.Simulation
import Verif.Tests.Balances
import Verif.Tests.Reads
import Verif.Tests.DecimalCrate
import Verif.Tests.Sdk
import Verif.Tests.Vft
import Verif.Props.Reasons
import Verif.Spec.Refusals
import Verif.Proofs.Refusals
import Verif.Props.Refusals
import Verif.Proofs.StopAtTick
import Verif.Proofs.AvgTake
import Verif.Props.Attack
import Verif.Props.Told
import Verif.Proofs.Home
import Verif.Props.Home
import Verif.Model.Concentration
import Verif.Props.Concentration
import Verif.Spec.Attempt
import Verif.Proofs.Attempt
import Verif.Props.Attempt
import Verif.Model.Removal
import Verif.Spec.Removal
import Verif.Props.Removal
import Verif.Spec.Elsewhere
import Verif.Props.Elsewhere
import Verif.Spec.Dictionary
import Verif.Props.Dictionary
import Verif.Model.SdkRequests
import Verif.Props.SdkRequests
import Verif.Spec.Settings
import Verif.Props.Settings
import Verif.Spec.Sale
import Verif.Props.Sale
import Verif.Spec.Till
import Verif.Proofs.Till
import Verif.Props.Till
import Verif.Spec.Toll
import Verif.Proofs.Toll
import Verif.Props.Toll
import Verif.Spec.Idle
import Verif.Props.Idle
import Verif.Props.Sign
import Verif.Props.RouteReasons
