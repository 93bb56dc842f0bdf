import Verif.Base.Res
import Verif.Base.Ledger
import Verif.Base.Arith
import Verif.Base.Dec
import Verif.Ownership.Model
import Verif.Ownership.Props
import Verif.Staking.Model
import Verif.Staking.Lemmas
import Verif.Staking.Props
import Verif.Staking.PairXastro
import Verif.Staking.Entry
import Verif.Staking.EntryProps
import Verif.Transmuter.Messages
import Verif.XToken.Hooks
import Verif.Duality.Entry
import Verif.XYK.Model
import Verif.XYK.Lemmas
import Verif.XYK.Props
import Verif.XYK.History
import Verif.XYK.Deposits
import Verif.Observation.Buffer
import Verif.Observation.Model
import Verif.Observation.Lemmas
import Verif.Observation.Props
import Verif.Observation.Sma
import Verif.Vesting.Model
import Verif.Vesting.Spec
import Verif.Vesting.Props
import Verif.SaleTax.Model
import Verif.SaleTax.Props
import Verif.Incentives.Schedule
import Verif.Incentives.Model
import Verif.Incentives.Spec
import Verif.Incentives.Pieces
import Verif.Incentives.Account
import Verif.Incentives.Conserve
import Verif.Incentives.Fund
import Verif.Incentives.Lp
import Verif.Incentives.Owed
import Verif.Incentives.Props
import Verif.Incentives.Prorata
import Verif.Incentives.Alloc
import Verif.Base.KV
import Verif.Asset.Model
import Verif.Asset.Props
import Verif.Factory.Model
import Verif.Factory.Props
import Verif.Router.Model
import Verif.Router.Props
import Verif.Router.Honest
import Verif.Transmuter.Model
import Verif.Transmuter.Props
import Verif.Stable.Model
import Verif.Stable.Amp
import Verif.Stable.Solver
import Verif.Stable.Props
import Verif.Stable.Ledgers
import Verif.Stable.NewtonReal
import Verif.Stable.Converge
import Verif.Stable.ConvergeY
import Verif.Stable.Quote
import Verif.Stable.Available
import Verif.PCL.Signed
import Verif.PCL.Model
import Verif.PCL.Lemmas
import Verif.PCL.Params
import Verif.PCL.Repeg
import Verif.PCL.Props
import Verif.PCL.Limits
import Verif.Maker.Model
import Verif.Maker.Lemmas
import Verif.Maker.Props
import Verif.Maker.More
import Verif.Base.Snapshot
import Verif.Tracker.Model
import Verif.Tracker.Props
import Verif.Base.Paging
import Verif.XToken.Model
import Verif.XToken.Props
import Verif.Converter.Model
import Verif.Converter.Props
import Verif.Converter.Upgrade
import Verif.Converter.Chains
import Verif.Converter.Neutron
import Verif.Registry.Model
import Verif.Registry.Props
import Verif.FeeGranter.Model
import Verif.FeeGranter.Props
import Verif.Whitelist.Model
import Verif.Whitelist.Props
import Verif.Oracle.Model
import Verif.Oracle.Props
import Verif.Duality.Model
import Verif.Duality.Lemmas
import Verif.Duality.Book
import Verif.Duality.Accounts
import Verif.Duality.Trades
import Verif.Duality.Fees
import Verif.Duality.Orders
import Verif.Duality.Quotes
import Verif.Duality.Upgrade
import Verif.Duality.Ledgers
import Verif.Incentives.Fair
import Verif.Inj.Model
import Verif.Inj.Lemmas
import Verif.Inj.Ledgers
import Verif.Inj.Entry
import Verif.Inj.Quotes
import Verif.Inj.Trades
import Verif.Inj.Orders
import Verif.Base.Tracked
import Verif.XYK.Tracked
import Verif.XYK.Entry
import Verif.XYK.Available
import Verif.PCL.Tracked
import Verif.Incentives.Queries
import Verif.Incentives.Many
import Verif.Incentives.Tokens
import Verif.Incentives.Stakers
import Verif.Incentives.Contract
import Verif.Incentives.Claims
import Verif.Joint.AutoStake
import Verif.Joint.Pool
import Verif.Joint.Registry
import Verif.Joint.Faces
import Verif.Joint.StakingHistory
import Verif.Factory.Settings
import Verif.Factory.Migrate
import Verif.Joint.VestingMigration
import Verif.Tracker.Migrate
import Verif.SaleTax.History
import Verif.Vesting.Listing
import Verif.Vesting.Entry
import Verif.Incentives.Vault
import Verif.Incentives.Entry
import Verif.XToken.Listing
import Verif.FeeGranter.Listing
import Verif.Incentives.Blocked
import Verif.Maker.Settings
import Verif.PCL.Queries
import Verif.PCL.Solver
import Verif.PCL.HalfLife
import Verif.Maker.Sells
import Verif.PCL.Reverse
import Verif.Duality.Queries
import Verif.Inj.Queries
import Verif.XToken.Info
import Verif.Restricted.Model
import Verif.Inj.Sizes
import Verif.Inj.Upgrade
import Verif.Registry.Decimals
import Verif.Incentives.Settings
import Verif.Incentives.Pending
import Verif.Incentives.Pools
import Verif.Upgrade.Versions
import Verif.SaleTax.Upgrade
import Verif.Oracle.Upgrade
import Verif.Maker.Upgrade
import Verif.Joint.XastroPair
import Verif.Asset.Ledgers
import Verif.Stable.Entry
import Verif.PCL.Entry
import Verif.Joint.Exchange
import Verif.Joint.Flows
import Verif.Joint.Market
import Verif.Joint.Value
import Verif.Joint.Available
import Verif.SaleTax.Entry
import Verif.Stable.Honest
import Verif.PCL.Honest
import Verif.XYK.Honest
import Verif.SaleTax.Honest
import Verif.Joint.StableAvailable
import Verif.Joint.Tracked
import Verif.SaleTax.Available
import Verif.PCL.Gifts
import Verif.PCL.Dust
import Verif.PCL.RoundTrip
import Verif.PCL.Large
import Verif.TokenFactory.Model
import Verif.TokenFactory.Props
import Verif.Inj.Numbers
