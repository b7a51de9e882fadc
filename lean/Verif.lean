import Verif.Base.Bytes
import Verif.Model.Address
import Verif.Model.Appointment
import Verif.Model.Config
import Verif.Model.Connection
import Verif.Model.DateTime
import Verif.Model.DbAsk
import Verif.Model.DnsConnect
import Verif.Model.Easy
import Verif.Model.EasyConnect
import Verif.Model.EasyHttp
import Verif.Model.EasyHws
import Verif.Model.EasyNet
import Verif.Model.EasyQueue
import Verif.Model.EasyStream
import Verif.Model.EasyTimer
import Verif.Model.EasyWs
import Verif.Model.ErrorText
import Verif.Model.Fiber
import Verif.Model.FiberHeap
import Verif.Model.Futures
import Verif.Model.Geometry
import Verif.Model.Heap
import Verif.Model.Hex
import Verif.Model.Http
import Verif.Model.HttpAgain
import Verif.Model.HttpClient
import Verif.Model.HttpExchange
import Verif.Model.HttpLib
import Verif.Model.HttpPage
import Verif.Model.HttpRequest
import Verif.Model.HttpResponse
import Verif.Model.HttpServer
import Verif.Model.HttpStore
import Verif.Model.HttpValue
import Verif.Model.Ipv6
import Verif.Model.Listen
import Verif.Model.Locks
import Verif.Model.LogAll
import Verif.Model.LogEntry
import Verif.Model.LogFiles
import Verif.Model.Logger
import Verif.Model.Mongo
import Verif.Model.MongoText
import Verif.Model.Multicast
import Verif.Model.Mysql
import Verif.Model.MysqlCheck
import Verif.Model.MysqlQuery
import Verif.Model.PidFile
import Verif.Model.Pool
import Verif.Model.Queries
import Verif.Model.Redis
import Verif.Model.Reload
import Verif.Model.Shutdown
import Verif.Model.Socket
import Verif.Model.SocketTable
import Verif.Model.SqlText
import Verif.Model.Stack
import Verif.Model.Startup
import Verif.Model.Task
import Verif.Model.TcpLink
import Verif.Model.Timer
import Verif.Model.TimerHeap
import Verif.Model.UdpLink
import Verif.Model.Uri
import Verif.Model.Utils
import Verif.Model.Uuid
import Verif.Model.UuidLiteral
import Verif.Model.ValueDrop
import Verif.Model.Ws
import Verif.Model.WsClient
import Verif.Model.WsExchange
import Verif.Model.WsHandshake
import Verif.Model.WsPeers
import Verif.Model.WsServer
import Verif.Model.WsSession
import Verif.Model.Zlib
import Verif.Proofs.Address
import Verif.Proofs.Appointment
import Verif.Proofs.Config
import Verif.Proofs.DateTime
import Verif.Proofs.DateTimeText
import Verif.Proofs.DbAskCase
import Verif.Proofs.DbAskConn
import Verif.Proofs.DbAskFut
import Verif.Proofs.DbAskMysql
import Verif.Proofs.DbAskPool
import Verif.Proofs.DbAskRedis
import Verif.Proofs.Easy
import Verif.Proofs.EasyConnect
import Verif.Proofs.EasyHttp
import Verif.Proofs.EasyHttpClient
import Verif.Proofs.EasyHws
import Verif.Proofs.EasyHwsRequests
import Verif.Proofs.EasyHwsSession
import Verif.Proofs.EasyNet
import Verif.Proofs.EasyQueue
import Verif.Proofs.EasyTimer
import Verif.Proofs.EasyWs
import Verif.Proofs.ErrorText
import Verif.Proofs.Fiber
import Verif.Proofs.FiberFair
import Verif.Proofs.FiberHeap
import Verif.Proofs.FiberHist
import Verif.Proofs.FiberInv
import Verif.Proofs.FiberLife
import Verif.Proofs.FiberTimeout
import Verif.Proofs.FiberWake
import Verif.Proofs.Future
import Verif.Proofs.Futures
import Verif.Proofs.Geometry
import Verif.Proofs.GeometryTable
import Verif.Proofs.HeaderFuel
import Verif.Proofs.HeaderParser
import Verif.Proofs.Heap
import Verif.Proofs.Hex
import Verif.Proofs.Http
import Verif.Proofs.HttpClient
import Verif.Proofs.HttpClientBare
import Verif.Proofs.HttpClientConsume
import Verif.Proofs.HttpClientDelivery
import Verif.Proofs.HttpClientSplit
import Verif.Proofs.HttpExchange
import Verif.Proofs.HttpExchangeAll
import Verif.Proofs.HttpLineLib
import Verif.Proofs.HttpMessage
import Verif.Proofs.HttpPage
import Verif.Proofs.HttpRequest
import Verif.Proofs.HttpResponse
import Verif.Proofs.HttpServer
import Verif.Proofs.HttpServerAgree
import Verif.Proofs.HttpServerBare
import Verif.Proofs.HttpServerConsume
import Verif.Proofs.HttpServerDefault
import Verif.Proofs.HttpServerDelivery
import Verif.Proofs.HttpServerSplit
import Verif.Proofs.HttpServerSync
import Verif.Proofs.HttpStore
import Verif.Proofs.HttpTarget
import Verif.Proofs.HttpValue
import Verif.Proofs.Ipv6
import Verif.Proofs.Live
import Verif.Proofs.Locks
import Verif.Proofs.LocksAll
import Verif.Proofs.LocksOrder
import Verif.Proofs.LogEntry
import Verif.Proofs.Logger
import Verif.Proofs.Mongo
import Verif.Proofs.MongoText
import Verif.Proofs.Multicast
import Verif.Proofs.Mysql
import Verif.Proofs.MysqlCheck
import Verif.Proofs.MysqlConversation
import Verif.Proofs.MysqlQuery
import Verif.Proofs.NetRef
import Verif.Proofs.PidFile
import Verif.Proofs.Pool
import Verif.Proofs.Queries
import Verif.Proofs.Redis
import Verif.Proofs.RedisConversation
import Verif.Proofs.Reload
import Verif.Proofs.ServiceUri
import Verif.Proofs.Shutdown
import Verif.Proofs.Socket
import Verif.Proofs.SocketInput
import Verif.Proofs.SocketInv
import Verif.Proofs.SocketNet
import Verif.Proofs.SocketReports
import Verif.Proofs.SocketShut
import Verif.Proofs.SocketTable
import Verif.Proofs.SqlText
import Verif.Proofs.Stack
import Verif.Proofs.StackInv
import Verif.Proofs.Startup
import Verif.Proofs.Task
import Verif.Proofs.TcpLink
import Verif.Proofs.Timer
import Verif.Proofs.TimerHeap
import Verif.Proofs.UdpLink
import Verif.Proofs.Uri
import Verif.Proofs.Utils
import Verif.Proofs.Uuid
import Verif.Proofs.UuidOrder
import Verif.Proofs.ValueDrop
import Verif.Proofs.WsAnswer
import Verif.Proofs.WsClient
import Verif.Proofs.WsClientInv
import Verif.Proofs.WsCut
import Verif.Proofs.WsExchange
import Verif.Proofs.WsGrows
import Verif.Proofs.WsHandshake
import Verif.Proofs.WsHeader
import Verif.Proofs.WsItems
import Verif.Proofs.WsIter
import Verif.Proofs.WsMask
import Verif.Proofs.WsMixed
import Verif.Proofs.WsPeers
import Verif.Proofs.WsServer
import Verif.Proofs.WsServerInv
import Verif.Proofs.WsSession
import Verif.Proofs.WsStream
import Verif.Proofs.WsThrow
import Verif.Proofs.Zlib
import Verif.Proofs.ZlibToy
import Verif.Props.Address
import Verif.Props.Appointment
import Verif.Props.Config
import Verif.Props.Connection
import Verif.Props.DateTime
import Verif.Props.DbAsk
import Verif.Props.DbLive
import Verif.Props.DnsConnect
import Verif.Props.Easy
import Verif.Props.EasyConnect
import Verif.Props.EasyExchange
import Verif.Props.EasyHws
import Verif.Props.EasyHwsCut
import Verif.Props.EasyLive
import Verif.Props.EasyNet
import Verif.Props.EasyNetLive
import Verif.Props.EasyQueue
import Verif.Props.EasySessionLive
import Verif.Props.EasyTimer
import Verif.Props.EasyWs
import Verif.Props.EasyWsCut
import Verif.Props.EasyWsLive
import Verif.Props.EndToEnd
import Verif.Props.ErrorText
import Verif.Props.Fiber
import Verif.Props.FiberLive
import Verif.Props.Futures
import Verif.Props.Geometry
import Verif.Props.Heap
import Verif.Props.Http
import Verif.Props.HttpClient
import Verif.Props.HttpExchange
import Verif.Props.HttpPage
import Verif.Props.HttpRequest
import Verif.Props.HttpServer
import Verif.Props.HttpStore
import Verif.Props.HttpValue
import Verif.Props.Ipv6
import Verif.Props.LinkLive
import Verif.Props.Listen
import Verif.Props.Locks
import Verif.Props.LogAll
import Verif.Props.LogEntry
import Verif.Props.LogFiles
import Verif.Props.Logger
import Verif.Props.LoggerLive
import Verif.Props.Mongo
import Verif.Props.MongoText
import Verif.Props.Multicast
import Verif.Props.Mysql
import Verif.Props.MysqlCheck
import Verif.Props.Pool
import Verif.Props.Queries
import Verif.Props.Redis
import Verif.Props.RedisProbing
import Verif.Props.Reload
import Verif.Props.Shutdown
import Verif.Props.Socket
import Verif.Props.SocketFlush
import Verif.Props.SocketLive
import Verif.Props.SocketTable
import Verif.Props.SqlText
import Verif.Props.Stack
import Verif.Props.Startup
import Verif.Props.Task
import Verif.Props.TaskLive
import Verif.Props.TcpLink
import Verif.Props.Timer
import Verif.Props.TimerLive
import Verif.Props.UdpLink
import Verif.Props.Uri
import Verif.Props.Utils
import Verif.Props.Uuid
import Verif.Props.UuidLiteral
import Verif.Props.ValueDrop
import Verif.Props.Ws
import Verif.Props.WsAnswer
import Verif.Props.WsClient
import Verif.Props.WsClientCut
import Verif.Props.WsCut
import Verif.Props.WsCutLoss
import Verif.Props.WsExchange
import Verif.Props.WsHandshake
import Verif.Props.WsMixed
import Verif.Props.WsPeers
import Verif.Props.WsServer
import Verif.Props.WsServerCut
import Verif.Props.WsSession
import Verif.Props.WsThrow
import Verif.Props.Zlib
import Verif.Spec.Address
import Verif.Spec.Appointment
import Verif.Spec.Config
import Verif.Spec.Connection
import Verif.Spec.DateTime
import Verif.Spec.DbAsk
import Verif.Spec.DbLive
import Verif.Spec.Easy
import Verif.Spec.EasyConnect
import Verif.Spec.EasyExchange
import Verif.Spec.EasyHttp
import Verif.Spec.EasyHws
import Verif.Spec.EasyLive
import Verif.Spec.EasyNet
import Verif.Spec.EasyQueue
import Verif.Spec.EasyTimer
import Verif.Spec.EasyWs
import Verif.Spec.EndToEnd
import Verif.Spec.ErrorText
import Verif.Spec.Fiber
import Verif.Spec.FiberLive
import Verif.Spec.Futures
import Verif.Spec.Geometry
import Verif.Spec.Heap
import Verif.Spec.Http
import Verif.Spec.HttpClient
import Verif.Spec.HttpExchange
import Verif.Spec.HttpPage
import Verif.Spec.HttpRequest
import Verif.Spec.HttpServer
import Verif.Spec.HttpStore
import Verif.Spec.HttpValue
import Verif.Spec.Ipv6
import Verif.Spec.Json
import Verif.Spec.LinkLive
import Verif.Spec.Listen
import Verif.Spec.Live
import Verif.Spec.Locks
import Verif.Spec.LogAll
import Verif.Spec.LogEntry
import Verif.Spec.LogFiles
import Verif.Spec.Logger
import Verif.Spec.LoggerLive
import Verif.Spec.Mongo
import Verif.Spec.MongoText
import Verif.Spec.Multicast
import Verif.Spec.Mysql
import Verif.Spec.MysqlCheck
import Verif.Spec.MysqlQuery
import Verif.Spec.Pool
import Verif.Spec.Queries
import Verif.Spec.Redis
import Verif.Spec.Reload
import Verif.Spec.Segments
import Verif.Spec.Shutdown
import Verif.Spec.Socket
import Verif.Spec.SocketLive
import Verif.Spec.SocketReports
import Verif.Spec.SqlText
import Verif.Spec.Stack
import Verif.Spec.Startup
import Verif.Spec.Task
import Verif.Spec.TaskLive
import Verif.Spec.Text
import Verif.Spec.Timer
import Verif.Spec.TimerLive
import Verif.Spec.UdpLink
import Verif.Spec.Uri
import Verif.Spec.ValueDrop
import Verif.Spec.Ws
import Verif.Spec.WsAnswer
import Verif.Spec.WsClient
import Verif.Spec.WsCut
import Verif.Spec.WsExchange
import Verif.Spec.WsMessage
import Verif.Spec.WsMixed
import Verif.Spec.WsPeers
import Verif.Spec.WsServer
import Verif.Spec.WsThrow
import Verif.Spec.Zlib
