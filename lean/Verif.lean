import Verif.Prelude.FMap
import Verif.Prelude.Exec
import Verif.Prelude.Arith
import Verif.Model.Types
import Verif.Model.Balances
import Verif.Model.World
import Verif.Model.Nft
import Verif.Model.Marketplace
import Verif.Model.Auction
import Verif.Model.Rent
import Verif.Model.Transmission
import Verif.Model.Tee
import Verif.Model.Bridge
import Verif.Model.Step
import Verif.Proofs.Bal
import Verif.Proofs.Slice
import Verif.Proofs.SliceNft
import Verif.Proofs.SliceMkt
import Verif.Proofs.RentSpec
import Verif.Proofs.SliceRent
import Verif.Proofs.SliceTr
import Verif.Proofs.Frame
import Verif.Proofs.Pays
import Verif.Proofs.Good
import Verif.Proofs.Queues
import Verif.Proofs.RentQ
import Verif.Proofs.RentInv
import Verif.Proofs.RentHook
import Verif.Proofs.TrInv
import Verif.Proofs.Inv
import Verif.Proofs.RentActs
import Verif.Proofs.StepCase
import Verif.Props.Demo
import Verif.Proofs.Lift
import Verif.Proofs.Events
import Verif.Proofs.Due
import Verif.Proofs.TrStep
import Verif.Proofs.TrHist
import Verif.Proofs.Coll
import Verif.Proofs.MktStep
import Verif.Proofs.AucActs
import Verif.Proofs.AucInv
import Verif.Proofs.AucStake
import Verif.Proofs.StepBal
import Verif.Proofs.AucPay
import Verif.Proofs.AucHook
import Verif.Proofs.AucTurn
import Verif.Props.Nft
import Verif.Props.Transmission
import Verif.Props.Market
import Verif.Props.Auction
import Verif.Proofs.RentStep
import Verif.Proofs.RentLive
import Verif.Proofs.Payout
import Verif.Proofs.Hist
import Verif.Props.Rent
import Verif.Props.Owner
import Verif.Proofs.Priv
import Verif.Proofs.TeeInv
import Verif.Proofs.TeeStake
import Verif.Proofs.TeeCover
import Verif.Proofs.TeeActs
import Verif.Proofs.TeeRew
import Verif.Props.Tee
import Verif.Props.Priv
import Verif.Proofs.BrActs
import Verif.Proofs.BrInv
import Verif.Props.Bridge
import Verif.Props.Rewards
import Verif.Props.Root
import Verif.Proofs.Dust
import Verif.Proofs.Kept
import Verif.Proofs.Panic
import Verif.Props.Supply
import Verif.Props.Exit
import Verif.Proofs.Pay
import Verif.Props.Use
import Verif.Props.Make
import Verif.Props.Trade
import Verif.Props.Hire
import Verif.Props.Operate
import Verif.Props.Cross
import Verif.Props.Local
import Verif.Props.LifeSpec
import Verif.Props.Life
import Verif.Props.Size
import Verif.Props.Content
import Verif.Props.Authority
import Verif.Props.Sync
import Verif.Props.Govern
import Verif.Model.Events
import Verif.Props.ObserverSpec
import Verif.Proofs.Observe
import Verif.Props.Observer
import Verif.Model.TeeEvents
import Verif.Model.BrEvents
import Verif.Props.RegistrySpec
import Verif.Proofs.Registry
import Verif.Props.Registry
import Verif.Props.RefuseSpec
import Verif.Props.Refuse
import Verif.Proofs.Horizon
import Verif.Props.Horizon
import Verif.Props.BridgeBooksSpec
import Verif.Proofs.BridgeBooks
import Verif.Props.BridgeBooks
import Verif.Props.CashSpec
import Verif.Proofs.Cash
import Verif.Props.Cash
import Verif.Props.PeriodSpec
import Verif.Proofs.Period
import Verif.Props.Period
import Verif.Props.Work
import Verif.Proofs.Undo
import Verif.Proofs.Stray
import Verif.Props.UndoSpec
import Verif.Props.Undo
import Verif.Props.Stakes
import Verif.Props.PriceSpec
import Verif.Proofs.Price
import Verif.Props.Price
import Verif.Model.Weights
import Verif.Props.WeightSpec
import Verif.Proofs.Weights
import Verif.Props.Weight
import Verif.Props.SymSpec
import Verif.Proofs.Sym
import Verif.Proofs.SymNft
import Verif.Proofs.SymAuc
import Verif.Proofs.SymRent
import Verif.Proofs.SymTr
import Verif.Proofs.SymTee
import Verif.Proofs.SymStep
import Verif.Props.Sym
import Verif.Props.LeftoverSpec
import Verif.Proofs.Leftover
import Verif.Props.Leftover
import Verif.Conform.Base
import Verif.Conform.Nft
import Verif.Conform.Marketplace
import Verif.Conform.Auction
import Verif.Conform.Rent
import Verif.Conform.Transmission
import Verif.Conform.Tee
import Verif.Conform.Bridge
import Verif.Proofs.ScopeBase
import Verif.Proofs.ScopeNft
import Verif.Proofs.ScopeAuc
import Verif.Proofs.ScopeTr
import Verif.Proofs.ScopeRent
import Verif.Proofs.Scope
import Verif.Props.ScopeSpec
import Verif.Props.Scope
import Verif.Props.Shut
import Verif.Proofs.Charges
import Verif.Props.Charges
import Verif.Props.BidderSpec
import Verif.Proofs.Bidder
import Verif.Props.Bidder
import Verif.Props.DepositSpec
import Verif.Proofs.Deposit
import Verif.Props.Deposit
import Verif.Model.Fees
import Verif.Props.FreeSpec
import Verif.Proofs.Free
import Verif.Props.Free
import Verif.Props.HookSpec
import Verif.Proofs.HookScope
import Verif.Proofs.HookApart
import Verif.Props.Hook
import Verif.Props.RicherSpec
import Verif.Proofs.Richer
import Verif.Props.Richer
import Verif.Proofs.RewardMono
import Verif.Props.Metric
import Verif.Model.Machine
import Verif.Proofs.Machine
import Verif.Props.Machine
import Verif.Props.LaterSpec
import Verif.Proofs.Later
import Verif.Proofs.LaterAuc
import Verif.Proofs.LaterRent
import Verif.Proofs.LaterTr
import Verif.Proofs.LaterTee
import Verif.Proofs.LaterStep
import Verif.Props.Later
import Verif.Props.TimeSpec
import Verif.Proofs.Time
import Verif.Props.Time
import Verif.Props.LockSpec
import Verif.Props.AcceptSpec
import Verif.Proofs.AcceptBase
import Verif.Proofs.AcceptNft
import Verif.Proofs.AcceptMkt
import Verif.Proofs.AcceptTr
import Verif.Proofs.AcceptRent
import Verif.Proofs.AcceptTee
import Verif.Proofs.AcceptFee
import Verif.Props.Accept
import Verif.Props.ReasonSpec
import Verif.Proofs.ReasonBase
import Verif.Proofs.ReasonNft
import Verif.Proofs.ReasonMkt
import Verif.Proofs.ReasonRent
import Verif.Proofs.ReasonTr
import Verif.Proofs.ReasonTee
import Verif.Proofs.ReasonReal
import Verif.Props.Reason
import Verif.Props.TwiceSpec
import Verif.Proofs.Twice
import Verif.Props.Twice
import Verif.Props.LooserSpec
import Verif.Proofs.Looser
import Verif.Props.Looser
import Verif.Model.CallSize
import Verif.Props.CallSizeSpec
import Verif.Proofs.CallSize
import Verif.Props.CallSize
import Verif.Props.FaultSpec
import Verif.Proofs.Fault
import Verif.Props.FaultCases
import Verif.Props.Fault
import Verif.Props.RevertSpec
import Verif.Proofs.Revert
import Verif.Props.Revert
import Verif.Props.OrderSpec
import Verif.Proofs.Order
import Verif.Props.Order
import Verif.Props.OverrideSpec
import Verif.Proofs.Override
import Verif.Props.Override
import Verif.Props.GrowthSpec
import Verif.Proofs.Growth
import Verif.Props.Growth
import Verif.Props.PartsSpec
import Verif.Proofs.Parts
import Verif.Props.Parts
import Verif.Props.BallotSpec
import Verif.Proofs.Ballot
import Verif.Props.Ballot
import Verif.Props.RenumSpec
import Verif.Proofs.Renum
import Verif.Proofs.RenumAuc
import Verif.Proofs.RenumRent
import Verif.Proofs.RenumStep
import Verif.Props.Renum
import Verif.Model.Code
import Verif.Proofs.Code
import Verif.Props.Code
import Verif.Model.Ext
import Verif.Props.Ext
import Verif.Props.ErasSpec
import Verif.Proofs.Eras
import Verif.Props.Eras
import Verif.Props.RivalsSpec
import Verif.Proofs.Rivals
import Verif.Props.Rivals
import Verif.Props.ReportsSpec
import Verif.Proofs.Reports
import Verif.Props.Reports
import Verif.Props.ShortfallSpec
import Verif.Proofs.Shortfall
import Verif.Props.Shortfall
import Verif.Props.CollectSpec
import Verif.Proofs.Collect
import Verif.Props.Collect
import Verif.Proofs.Rescue
import Verif.Props.Rescue
import Verif.Proofs.Hush
import Verif.Props.Hush
import Verif.Props.RewardCap
import Verif.Proofs.Apply
import Verif.Props.Apply
import Verif.Props.Config
import Verif.Props.MintOrder
import Verif.Proofs.Blind
import Verif.Props.SelfServe
import Verif.Props.RoundSpec
import Verif.Props.Round
import Verif.Props.FairSpec
import Verif.Props.Fair
import Verif.Props.Portion
import Verif.Props.Pool
import Verif.Props.TuneSpec
import Verif.Props.Tune
import Verif.Props.ProlongSpec
import Verif.Props.Prolong
import Verif.Props.Announced
import Verif.Props.LeaseSpec
import Verif.Props.Lease
import Verif.Props.ShieldSpec
import Verif.Props.Shield
import Verif.Props.Arrive
import Verif.Props.Patience
import Verif.Props.Early
import Verif.Props.Removed
import Verif.Props.Holders
import Verif.Props.NetworkSpec
import Verif.Props.Network
import Verif.Props.Restart
import Verif.Props.NetworkLive
import Verif.Props.NetworkLoss
import Verif.Props.Cold
import Verif.Props.ColdMore
import Verif.Props.Seat
import Verif.Props.Vendor
import Verif.Props.Consign
import Verif.Props.Lessor
import Verif.Props.Lent
import Verif.Props.Lodger
import Verif.Props.Subscriber
import Verif.Props.Subscribers
