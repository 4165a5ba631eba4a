import Verif.GoValue.Props
import Verif.Queue.Props
import Verif.Cache.Props
import Verif.Registry.Props
import Verif.Workload.Props
import Verif.ClientPool.Props
import Verif.Address.Props
import Verif.Strings.Props
import Verif.IR.Props
import Verif.GoCode.Props
import Verif.GoGen.Props
import Verif.GoGen.FinishProps
import Verif.NoSQL.Props
import Verif.NoSQL.Text
import Verif.NoSQL.NestedExamples
import Verif.Wrappers.Props
import Verif.Wiring.Props
import Verif.RtNs.Props
import Verif.Deploy.Props
import Verif.Grpc.Props
import Verif.Http.Props
import Verif.ModGen.Props
import Verif.Stack.Props
import Verif.Backends.Failures
import Verif.Cart.Props
import Verif.Cart.Examples
import Verif.Cart.FailExamples
import Verif.Users.Props
import Verif.Users.Examples
import Verif.Users.FailExamples
import Verif.Users.TogetherExamples
import Verif.Orders.Props
import Verif.Orders.Examples
import Verif.Orders.TogetherExamples
import Verif.Shipping.Props
import Verif.Shipping.ManyExamples
import Verif.Shipping.RunExamples
import Verif.Leaf.Examples
import Verif.GoParse.Props
import Verif.GoParse.Modules
import Verif.GoParse.LookupProps
import Verif.Hotel.Props
import Verif.Social.Ids
import Verif.Social.Props
import Verif.Social.Accounts
import Verif.Social.TextProps
import Verif.Thrift.Examples
import Verif.Grpc.Refuted
import Verif.Tracing.VecProps
import Verif.Tracing.OtProps
import Verif.Tracing.XtProps
import Verif.Scope.Examples
import Verif.Catalogue.Examples
import Verif.Catalogue.TogetherExamples
import Verif.Frontend.Examples
import Verif.Trains.Examples
import Verif.Trains.FailExamples
import Verif.Trains.ConcurrentExamples
import Verif.GoTests.Examples
import Verif.Compile.Model
import Verif.Compile.Names
import Verif.Compile.Den
import Verif.Compile.Runs
import Verif.Compile.Det
import Verif.Compile.Inv
import Verif.Compile.Put
import Verif.Compile.Get
import Verif.Compile.Queue
import Verif.Compile.Table
import Verif.Compile.Family
import Verif.Compile.Run
import Verif.Compile.Spec
import Verif.Compile.Service
import Verif.Compile.Facts
import Verif.Compile.Plan
import Verif.Compile.Whole
import Verif.Compile.Ends
import Verif.Compile.Seen
import Verif.Compile.Props
import Verif.Compile.Examples
import Verif.Compile.Replicate
import Verif.Compile.Refuted
import Verif.Deploy.RunEnv
import Verif.Deploy.ComposeMore
import Verif.Live.Model
import Verif.Live.Spec
import Verif.Live.Defs
import Verif.Live.Launch
import Verif.Live.Closed
import Verif.Live.Props
import Verif.Live.DeployModel
import Verif.Live.DeploySpec
import Verif.Live.Objects
import Verif.Live.Wire
import Verif.Live.Ports
import Verif.Live.Flags
import Verif.Live.Connected
import Verif.Live.Examples
import Verif.Mongo.Model
import Verif.Mongo.Spec
import Verif.Mongo.Props
import Verif.Mongo.Examples
import Verif.Races.Model
import Verif.Races.Spec
import Verif.Races.Props
import Verif.Hotel.Web
import Verif.Hotel.WebSpec
import Verif.Hotel.WebProps
import Verif.Hotel.ConcProps
import Verif.Hotel.GeoProps
import Verif.Cmd.Props
import Verif.Image.Props
import Verif.Image.ScriptProps
import Verif.Interleave.Props
import Verif.Social.ConcProps
import Verif.Logs.Model
import Verif.Logs.Spec
import Verif.Logs.Props
import Verif.Logs.Build
import Verif.Logs.Run
import Verif.Logs.Examples
import Verif.Balance.Model
import Verif.Balance.Spec
import Verif.Balance.Props
import Verif.Balance.Examples
import Verif.Output.Model
import Verif.Output.Spec
import Verif.Output.Lemmas
import Verif.Output.Props
import Verif.Output.Examples
