import Verif.Props.Identity
import Verif.Props.Quantity
import Verif.Props.Interval
import Verif.Props.Price
import Verif.Props.Accounting
import Verif.Props.Inventory
import Verif.Props.Communicator
import Verif.Props.Scheduler
import Verif.Props.Threads
import Verif.Props.OrderBook
import Verif.Props.MessageCode
import Verif.Props.BlockPool
import Verif.Props.StaticCoding
import Verif.Props.StaticDouble
import Verif.Props.StaticBook
import Verif.Props.Codes
import Verif.Props.Sampler
import Verif.Props.BlockingQueue
import Verif.Props.QueueSize
import Verif.Props.ThreadPool
import Verif.Props.Algorithms
import Verif.Props.MarketMaker
import Verif.Props.Text
import Verif.Props.OpenBook
import Verif.Props.Output
import Verif.Props.Serialization
import Verif.Props.Company
import Verif.Model.Walras
import Verif.Lemmas.Walras
import Verif.Props.Walras
import Verif.Props.WalrasRounded
import Verif.Model.Tatonnement
import Verif.Lemmas.Tatonnement
import Verif.Props.Tatonnement
import Verif.Model.Impact
import Verif.Props.Impact
import Verif.Model.Exchange
import Verif.Lemmas.Exchange
import Verif.Props.Exchange
import Verif.Model.OrderLog
import Verif.Props.OrderLog
import Verif.Model.Distributed
import Verif.Lemmas.Distributed
import Verif.Props.Distributed
import Verif.Spec.Iso
import Verif.Model.Names
import Verif.Model.Jurisdictions
import Verif.Model.Ticker
import Verif.Model.Log
import Verif.Props.Names
import Verif.Props.Iso
import Verif.Props.Ticker
import Verif.Props.Log
import Verif.Model.Python
import Verif.Props.Python
import Verif.Model.Construction
import Verif.Props.Construction
import Verif.Model.Messages
import Verif.Props.Messages
import Verif.Model.PriceArithmetic
import Verif.Lemmas.Double
import Verif.Props.PriceArithmetic
import Verif.Model.Clearing
import Verif.Lemmas.Clearing
import Verif.Props.Clearing
import Verif.Model.Unique
import Verif.Lemmas.Unique
import Verif.Props.Unique
import Verif.Model.QuantityNumber
import Verif.Props.QuantityNumber
import Verif.Model.Announcements
import Verif.Props.Announcements
import Verif.Lemmas.Ledger
import Verif.Model.Holders
import Verif.Props.Holders
import Verif.Props.Ledger
import Verif.Model.Averages
import Verif.Props.Averages
import Verif.Model.Printing
import Verif.Props.Printing
import Verif.Props.Sharing
import Verif.Props.Bindings
import Verif.Model.Auction
import Verif.Props.Auction
import Verif.Lemmas.Flow
import Verif.Model.Venue
import Verif.Props.Venue
import Verif.Lemmas.FairBook
import Verif.Props.Feed
import Verif.Model.QuotedBook
import Verif.Props.QuotedBook
import Verif.Model.Population
import Verif.Spec.Population
import Verif.Lemmas.Population
import Verif.Props.Population
import Verif.Props.Immediate
import Verif.Lemmas.RunAgent
import Verif.Model.Dividends
import Verif.Props.Dividends
import Verif.Model.Payout
import Verif.Props.Payout
import Verif.Model.Grid
import Verif.Props.Grid
import Verif.Props.Simplex
import Verif.Model.Listing
import Verif.Props.Listing
import Verif.Props.MarketMakerDouble
import Verif.Model.Overrides
import Verif.Props.Overrides
import Verif.Model.Callbacks
import Verif.Props.Callbacks
import Verif.Model.Hashing
import Verif.Props.Hashing
import Verif.Model.Solvers
import Verif.Props.Solvers
import Verif.Model.Poisson
import Verif.Props.Poisson
import Verif.Model.Distance
import Verif.Props.Distance
import Verif.Model.Notices
import Verif.Props.Notices
import Verif.Model.Attributes
import Verif.Props.Attributes
import Verif.Model.Experiment
import Verif.Props.Experiment
import Verif.Model.Orders
import Verif.Props.Orders
import Verif.Model.Values
import Verif.Props.Values
import Verif.Model.TatonnementRounded
import Verif.Lemmas.TatonnementRounded
import Verif.Props.TatonnementRounded
import Verif.Model.WorkerPool
import Verif.Lemmas.WorkerPool
import Verif.Props.WorkerPool
import Verif.Props.Parallel
import Verif.Model.Money
import Verif.Props.Money
import Verif.Model.Constants
import Verif.Props.Constants
import Verif.Model.Seeds
import Verif.Props.Identifiable
import Verif.Props.QuotedPriority
import Verif.Props.QuotedData
import Verif.Props.QuotedCrossing
import Verif.Props.QuotedSides
import Verif.Props.QuotedUnits
import Verif.Props.QuotedExchange
import Verif.Props.Version
import Verif.Props.Saved
import Verif.Model.Calls
import Verif.Props.Calls
import Verif.Model.Hypercube
import Verif.Props.Hypercube
import Verif.Model.Latency
import Verif.Props.Latency
import Verif.Model.Draws
import Verif.Lemmas.Draws
import Verif.Props.Draws
import Verif.Model.DirectOrders
import Verif.Lemmas.DirectOrders
import Verif.Props.DirectOrders
import Verif.Model.Shuffle
import Verif.Props.Seeds
import Verif.Props.Shuffle
