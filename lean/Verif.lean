import Verif.Model.Parse
import Verif.Props.Priority
import Verif.Props.Fields
import Verif.Props.Transport
import Verif.Props.SData
import Verif.Props.Encoder
import Verif.Props.EncoderExact
import Verif.Props.Parse
import Verif.Props.RoundTrip
import Verif.Props.Grammar
import Verif.Props.Injection
import Verif.Props.Syslog
import Verif.Props.Sender
import Verif.Model.Tokenizer
import Verif.Spec.Accessors
import Verif.Spec.Receive
import Verif.Lemmas.Tokenizer
import Verif.Props.Tokenizer
import Verif.Model.Receiver
import Verif.Spec.Receiver
import Verif.Lemmas.Receiver
import Verif.Props.Receiver
import Verif.Model.Alias
import Verif.Spec.Alias
import Verif.Lemmas.Alias
import Verif.Props.Alias
import Verif.Model.Net
import Verif.Spec.Net
import Verif.Props.Net
import Verif.Spec.TimeQuality
import Verif.Props.TimeQuality
import Verif.Model.Clock
import Verif.Spec.Clock
import Verif.Lemmas.Clock
import Verif.Props.Clock
import Verif.Model.Datagram
import Verif.Props.Datagram
import Verif.Spec.EndToEnd
import Verif.Props.EndToEnd
import Verif.Props.EndToEndLines
import Verif.Props.EndToEndMany
import Verif.Spec.Logging
import Verif.Props.Logging
import Verif.Props.LoggingMany
import Verif.Props.LoggedEventually
import Verif.Props.SendCalls
import Verif.Props.LoggedToMany
import Verif.Props.ReceiveCalls
import Verif.Props.SyslogShared
import Verif.Spec.Gram
import Verif.Props.Gram
import Verif.Props.Truncation
import Verif.Model.Meta
import Verif.Props.Meta
import Verif.Model.Dialed
import Verif.Props.Dialed
import Verif.Model.Writev
import Verif.Spec.Writev
import Verif.Props.Writev
import Verif.Model.Registry
import Verif.Spec.Registry
import Verif.Props.Registry
import Verif.Spec.Content
import Verif.Props.Content
import Verif.Spec.Wire
import Verif.Props.Wire
import Verif.Props.Decoder
import Verif.Props.Streams
import Verif.Props.Cuts
import Verif.Props.CutLines
import Verif.Props.Diagnosis
import Verif.Props.Liveness
import Verif.Props.Delivery
import Verif.Props.Accepting
import Verif.Props.UserTransport
import Verif.Props.Race
import Verif.Props.Backpressure
import Verif.Spec.Lines
import Verif.Props.Lines
import Verif.Model.Footprint
import Verif.Spec.Footprint
import Verif.Props.Footprint
import Verif.Model.UserConn
import Verif.Spec.UserConn
import Verif.Props.UserConn
import Verif.Props.LinesCrash
import Verif.Model.Calls
import Verif.Spec.Calls
import Verif.Lemmas.Calls
import Verif.Props.Calls
import Verif.Model.Stepwise
import Verif.Spec.Stepwise
import Verif.Lemmas.Stepwise
import Verif.Lemmas.Simulation
import Verif.Lemmas.SimStep
import Verif.Lemmas.SimRun
import Verif.Lemmas.SimBack
import Verif.Props.Stepwise
import Verif.Model.ErrorText
import Verif.Spec.Literal
import Verif.Lemmas.Quote
import Verif.Lemmas.Literal
import Verif.Props.ErrorText
import Verif.Model.TestKit
import Verif.Props.TestKit
import Verif.Tests.Repo
import Verif.Model.Utf8
import Verif.Spec.Tag
import Verif.Lemmas.Utf8
import Verif.Lemmas.Tag
import Verif.Props.SdGrammar
import Verif.Spec.TimeRead
import Verif.Props.TimeRead
import Verif.Spec.LoggingMany
import Verif.Props.Goroutines
import Verif.Props.Registered
import Verif.Spec.Reconnect
import Verif.Props.Reconnect
import Verif.Props.ReconnectOne
import Verif.Spec.Relay
import Verif.Props.Relay
import Verif.Spec.Forward
import Verif.Props.Forward
import Verif.Model.UserListener
import Verif.Spec.UserListener
import Verif.Props.UserListener
import Verif.Model.AnyWriter
import Verif.Spec.AnyWriter
import Verif.Props.AnyWriter
import Verif.Spec.GramFair
import Verif.Props.GramFair
import Verif.Spec.GramLogged
import Verif.Props.GramLogged
import Verif.Props.Exit
import Verif.Props.Exit5425
import Verif.Props.Server
import Verif.Spec.Resync
import Verif.Props.Resync
import Verif.Spec.CutCost
import Verif.Props.CutCost
import Verif.Props.CutCostLogged
import Verif.Spec.TqCanonical
import Verif.Props.TqExact
import Verif.Props.Exact
import Verif.Model.Recovered
import Verif.Spec.Recovered
import Verif.Props.Recovered
import Verif.Spec.Latency
import Verif.Props.Latency
import Verif.Spec.Loggers
import Verif.Props.Loggers
import Verif.Props.LoggersEventually
import Verif.Props.LoggersServer
import Verif.Props.LoggersGram
