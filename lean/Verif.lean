import Verif.Model.Client
import Verif.Model.ClientSend
import Verif.Model.ClientStd
import Verif.Model.Config
import Verif.Model.Examples
import Verif.Model.FullStream
import Verif.Model.Handle
import Verif.Model.Identity
import Verif.Model.Proxy
import Verif.Model.ProxyUtil
import Verif.Model.Receive
import Verif.Model.Server
import Verif.Model.ServerSend
import Verif.Model.Service
import Verif.Model.Stream
import Verif.Model.TagGenerator
import Verif.Model.Tls
import Verif.Model.Types
import Verif.Model.Upgrade
import Verif.Spec.Accepted
import Verif.Spec.AcceptedSamples
import Verif.Spec.Calls
import Verif.Spec.ClientHeld
import Verif.Spec.ClientHistory
import Verif.Spec.ClientSamples
import Verif.Spec.ClientStd
import Verif.Spec.ClientStdSamples
import Verif.Spec.ClientTrace
import Verif.Spec.Clients
import Verif.Spec.Codec
import Verif.Spec.Config
import Verif.Spec.ConfigSamples
import Verif.Spec.Dialogue
import Verif.Spec.DialogueSamples
import Verif.Spec.Ends
import Verif.Spec.ExampleSamples
import Verif.Spec.Examples
import Verif.Spec.Framing
import Verif.Spec.FullReturns
import Verif.Spec.FullSamples
import Verif.Spec.FullTrace
import Verif.Spec.Grows
import Verif.Spec.HandleProcess
import Verif.Spec.Held
import Verif.Spec.HeldSamples
import Verif.Spec.HeldTls
import Verif.Spec.Identity
import Verif.Spec.IdleUnanswered
import Verif.Spec.Imap
import Verif.Spec.InjectionSamples
import Verif.Spec.Net
import Verif.Spec.NetRejectSamples
import Verif.Spec.NetSamples
import Verif.Spec.Proxy
import Verif.Spec.ProxyHeldSamples
import Verif.Spec.ProxyIdleSamples
import Verif.Spec.ProxySamples
import Verif.Spec.ProxyTls
import Verif.Spec.ProxyTlsSamples
import Verif.Spec.Relay
import Verif.Spec.RelayDialogue
import Verif.Spec.RelayDialogueSamples
import Verif.Spec.RelayReject
import Verif.Spec.RelayRejectSamples
import Verif.Spec.RelayRest
import Verif.Spec.RelayRestSamples
import Verif.Spec.RelaySamples
import Verif.Spec.Reserve
import Verif.Spec.Rest
import Verif.Spec.RestSamples
import Verif.Spec.Search
import Verif.Spec.ServerHistory
import Verif.Spec.ServerSamples
import Verif.Spec.ServerTrace
import Verif.Spec.Service
import Verif.Spec.ServiceSamples
import Verif.Spec.Session
import Verif.Spec.SessionSamples
import Verif.Spec.SocketSamples
import Verif.Spec.Sockets
import Verif.Spec.StreamDialogue
import Verif.Spec.StreamDialogueSamples
import Verif.Spec.StreamNet
import Verif.Spec.StreamNetSamples
import Verif.Spec.StreamReject
import Verif.Spec.StreamRejectSamples
import Verif.Spec.StreamSamples
import Verif.Spec.StreamSent
import Verif.Spec.StreamTrace
import Verif.Spec.TagProcess
import Verif.Spec.TlsRecords
import Verif.Spec.Toy
import Verif.Spec.Upgrade
import Verif.Spec.UpgradeSamples
import Verif.Spec.Upstream
import Verif.Spec.UpstreamTests
import Verif.Spec.Work
import Verif.Spec.WorkClient
import Verif.Proofs.Accepted
import Verif.Proofs.Backlog
import Verif.Proofs.Chunk
import Verif.Proofs.ClientAgain
import Verif.Proofs.ClientChunk
import Verif.Proofs.ClientEnded
import Verif.Proofs.ClientHeld
import Verif.Proofs.ClientHeldTls
import Verif.Proofs.ClientInv
import Verif.Proofs.ClientLiteral
import Verif.Proofs.ClientNext
import Verif.Proofs.ClientReads
import Verif.Proofs.ClientSafe
import Verif.Proofs.ClientSegments
import Verif.Proofs.ClientStd
import Verif.Proofs.ClientTrace
import Verif.Proofs.ClientUnsent
import Verif.Proofs.ClientView
import Verif.Proofs.Clients
import Verif.Proofs.Dialogue
import Verif.Proofs.DialogueClient
import Verif.Proofs.DialogueDrained
import Verif.Proofs.DialogueNet
import Verif.Proofs.DialogueOrder
import Verif.Proofs.DialogueRun
import Verif.Proofs.DialogueServer
import Verif.Proofs.DialogueStuck
import Verif.Proofs.DialogueTold
import Verif.Proofs.Ends
import Verif.Proofs.EndsVisible
import Verif.Proofs.ExampleClients
import Verif.Proofs.ExampleScripts
import Verif.Proofs.ExampleServers
import Verif.Proofs.ExampleSteps
import Verif.Proofs.Framing
import Verif.Proofs.FullSockets
import Verif.Proofs.FullStream
import Verif.Proofs.FullStreamClose
import Verif.Proofs.FullStreamData
import Verif.Proofs.FullStreamIo
import Verif.Proofs.FullStreamReturns
import Verif.Proofs.FullStreamRun
import Verif.Proofs.Grows
import Verif.Proofs.HandleProcess
import Verif.Proofs.Held
import Verif.Proofs.HeldTls
import Verif.Proofs.Identity
import Verif.Proofs.IdleUnanswered
import Verif.Proofs.Injection
import Verif.Proofs.Lists
import Verif.Proofs.Net
import Verif.Proofs.NetAnswers
import Verif.Proofs.NetDone
import Verif.Proofs.NetDrained
import Verif.Proofs.NetLiteral
import Verif.Proofs.NetMessages
import Verif.Proofs.NetMixed
import Verif.Proofs.NetReads
import Verif.Proofs.NetReject
import Verif.Proofs.NetSettled
import Verif.Proofs.NetStuck
import Verif.Proofs.NoFlush
import Verif.Proofs.Outcome
import Verif.Proofs.Proxy
import Verif.Proofs.ProxyEvents
import Verif.Proofs.ProxyFilter
import Verif.Proofs.ProxyHandlers
import Verif.Proofs.ProxyHeld
import Verif.Proofs.ProxyJoint
import Verif.Proofs.ProxyLedger
import Verif.Proofs.ProxyLinks
import Verif.Proofs.ProxyMessages
import Verif.Proofs.ProxyPanic
import Verif.Proofs.ProxyReceived
import Verif.Proofs.ProxySides
import Verif.Proofs.ProxyWaiting
import Verif.Proofs.ProxyWire
import Verif.Proofs.Receive
import Verif.Proofs.Relay
import Verif.Proofs.RelayBound
import Verif.Proofs.RelayCoupled
import Verif.Proofs.RelayDelivered
import Verif.Proofs.RelayEnd
import Verif.Proofs.RelayFed
import Verif.Proofs.RelayHandlers
import Verif.Proofs.RelayJoined
import Verif.Proofs.RelayMixed
import Verif.Proofs.RelayMoves
import Verif.Proofs.RelayReported
import Verif.Proofs.RelayRest
import Verif.Proofs.RelayRun
import Verif.Proofs.RelaySteps
import Verif.Proofs.RelayTurn
import Verif.Proofs.RelayUse
import Verif.Proofs.Reserve
import Verif.Proofs.ReserveProxy
import Verif.Proofs.Rest
import Verif.Proofs.RestDelivered
import Verif.Proofs.RestSides
import Verif.Proofs.Search
import Verif.Proofs.SearchClient
import Verif.Proofs.ServerChunk
import Verif.Proofs.ServerInv
import Verif.Proofs.ServerReads
import Verif.Proofs.ServerReplies
import Verif.Proofs.ServerSafe
import Verif.Proofs.ServerTrace
import Verif.Proofs.ServerView
import Verif.Proofs.Service
import Verif.Proofs.SessionAuth
import Verif.Proofs.SessionIdle
import Verif.Proofs.SessionLink
import Verif.Proofs.SessionLive
import Verif.Proofs.SessionLogin
import Verif.Proofs.SessionPairs
import Verif.Proofs.SessionRest
import Verif.Proofs.SessionRun
import Verif.Proofs.SessionSides
import Verif.Proofs.SessionWords
import Verif.Proofs.Sockets
import Verif.Proofs.Stream
import Verif.Proofs.StreamCalls
import Verif.Proofs.StreamClient
import Verif.Proofs.StreamDialogue
import Verif.Proofs.StreamIo
import Verif.Proofs.StreamMixed
import Verif.Proofs.StreamNet
import Verif.Proofs.StreamNetReports
import Verif.Proofs.StreamNetResponses
import Verif.Proofs.StreamNetWait
import Verif.Proofs.StreamReject
import Verif.Proofs.StreamRest
import Verif.Proofs.StreamSent
import Verif.Proofs.StreamShape
import Verif.Proofs.Tls
import Verif.Proofs.Upgrade
import Verif.Proofs.Work
import Verif.Proofs.WorkClient
import Verif.Proofs.WorkDecoder
import Verif.Props.C01
import Verif.Props.C02
import Verif.Props.C03
import Verif.Props.C04
import Verif.Props.C05
import Verif.Props.C06
import Verif.Props.C07
import Verif.Props.C08
import Verif.Props.C09
import Verif.Props.C10
import Verif.Props.C11
import Verif.Props.C12
import Verif.Props.C13
import Verif.Props.C14
import Verif.Props.C15
import Verif.Props.C16
import Verif.Props.C17
import Verif.Props.C18
import Verif.Props.C19
import Verif.Props.C20
import Verif.Props.C21
import Verif.Props.C22
import Verif.Props.C23
import Verif.Props.C24
import Verif.Props.C25
import Verif.Props.C26
import Verif.Props.C27
import Verif.Props.C28
import Verif.Props.C29
import Verif.Props.C30
import Verif.Props.C31
import Verif.Props.C32
import Verif.Props.C33
import Verif.Props.C34
import Verif.Props.C35
import Verif.Props.C36
import Verif.Props.C37
import Verif.Props.C38
import Verif.Props.C39
import Verif.Props.C40
import Verif.Props.C41
import Verif.Props.C42
import Verif.Props.C43
import Verif.Props.C44
import Verif.Props.C45
import Verif.Props.C46
import Verif.Props.C47
import Verif.Props.C48
import Verif.Props.C49
import Verif.Props.C50
import Verif.Props.C51
import Verif.Props.C52
import Verif.Props.C53
import Verif.Props.C54
import Verif.Props.C55
import Verif.Props.C56
import Verif.Props.C57
import Verif.Props.C58
import Verif.Props.C59
import Verif.Props.C60
import Verif.Props.C61
import Verif.Props.C62
import Verif.Props.C63
import Verif.Props.C64
import Verif.Props.C65
import Verif.Props.C66
import Verif.Props.C67
import Verif.Props.C68
import Verif.Props.C69
import Verif.Props.C70
import Verif.Props.C71
import Verif.Props.C72
import Verif.Props.C73
import Verif.Props.C74
import Verif.Props.C75
import Verif.Props.C76
import Verif.Props.C77
import Verif.Props.C78
import Verif.Props.C79
import Verif.Props.C80
import Verif.Props.C81
import Verif.Props.C82
import Verif.Props.C83
import Verif.Props.C84
import Verif.Props.C85
import Verif.Props.C86
import Verif.Props.C87
import Verif.Props.C88
import Verif.Props.C89
