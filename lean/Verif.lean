import Verif.Model.Base64
import Verif.Model.BytesLike
import Verif.Model.Connection
import Verif.Model.Exceptions
import Verif.Model.FormatClose
import Verif.Model.Frames
import Verif.Model.Handshake
import Verif.Model.HeaderParse
import Verif.Model.Headers
import Verif.Model.HeadersHeap
import Verif.Model.Http11
import Verif.Model.ImportTables
import Verif.Model.Imports
import Verif.Model.Interactive
import Verif.Model.LegacyAddress
import Verif.Model.LegacyAttrs
import Verif.Model.LegacyAuth
import Verif.Model.LegacyBuffer
import Verif.Model.LegacyClient
import Verif.Model.LegacyClose
import Verif.Model.LegacyConfig
import Verif.Model.LegacyConn
import Verif.Model.LegacyDrain
import Verif.Model.LegacyHandler
import Verif.Model.LegacyIter
import Verif.Model.LegacyKeepalive
import Verif.Model.LegacyLife
import Verif.Model.LegacyQueue
import Verif.Model.LegacyRead
import Verif.Model.LegacyRegistry
import Verif.Model.LegacyServe
import Verif.Model.LegacyServer
import Verif.Model.LegacyStream
import Verif.Model.LegacySystem
import Verif.Model.LegacyTimed
import Verif.Model.LegacyTransfer
import Verif.Model.MainThread
import Verif.Model.Pmd
import Verif.Model.Prelude
import Verif.Model.Sha1
import Verif.Model.Speedups
import Verif.Model.Streams
import Verif.Model.Terminal
import Verif.Model.Uri
import Verif.Model.Utf8
import Verif.Model.Utils
import Verif.Spec.Base64
import Verif.Spec.Conforming
import Verif.Spec.Handshake
import Verif.Spec.HeaderGrammar
import Verif.Spec.Headers
import Verif.Spec.Http
import Verif.Spec.IpAddress
import Verif.Spec.Mask
import Verif.Spec.Output
import Verif.Spec.Pmd
import Verif.Spec.Receive
import Verif.Spec.Utf8
import Verif.Spec.Wire
import Verif.Lemmas.Base64
import Verif.Lemmas.Base64Decode
import Verif.Lemmas.Brief
import Verif.Lemmas.Client
import Verif.Lemmas.ConnChunk
import Verif.Lemmas.ConnExact
import Verif.Lemmas.ConnFail
import Verif.Lemmas.ConnFwd
import Verif.Lemmas.ConnHist
import Verif.Lemmas.ConnOut
import Verif.Lemmas.ConnRecv
import Verif.Lemmas.ConnReply
import Verif.Lemmas.ExtParse
import Verif.Lemmas.Frames
import Verif.Lemmas.Handshake
import Verif.Lemmas.HeaderParse
import Verif.Lemmas.Http
import Verif.Lemmas.HttpInt
import Verif.Lemmas.IpAddress
import Verif.Lemmas.LegacyAnySend
import Verif.Lemmas.LegacyCloseInfo
import Verif.Lemmas.LegacyConn
import Verif.Lemmas.LegacyDrain
import Verif.Lemmas.LegacyLife
import Verif.Lemmas.LegacyPinging
import Verif.Lemmas.LegacyPings
import Verif.Lemmas.LegacyQueue
import Verif.Lemmas.LegacySend
import Verif.Lemmas.LegacyStream
import Verif.Lemmas.LegacyTransfer
import Verif.Lemmas.Mask
import Verif.Lemmas.Pmd
import Verif.Lemmas.PmdTame
import Verif.Lemmas.Server
import Verif.Lemmas.StoredZlib
import Verif.Lemmas.Streams
import Verif.Lemmas.Uri
import Verif.Lemmas.Utf8
import Verif.Lemmas.Wire
import Verif.Props.Agreement
import Verif.Props.Attributes
import Verif.Props.BytesLike
import Verif.Props.Chunking
import Verif.Props.Client
import Verif.Props.ClientRequest
import Verif.Props.Closing
import Verif.Props.ClosingCodes
import Verif.Props.Conform
import Verif.Props.EndToEnd
import Verif.Props.ExceptionMessages
import Verif.Props.Exceptions
import Verif.Props.FormatClose
import Verif.Props.Frames
import Verif.Props.HeaderParse
import Verif.Props.Headers
import Verif.Props.HeadersCopy
import Verif.Props.Http
import Verif.Props.Imports
import Verif.Props.Interactive
import Verif.Props.Interop
import Verif.Props.InteropSession
import Verif.Props.KeepaliveModels
import Verif.Props.LegacyAddress
import Verif.Props.LegacyAnySend
import Verif.Props.LegacyAttrs
import Verif.Props.LegacyAuth
import Verif.Props.LegacyBuffer
import Verif.Props.LegacyCancel
import Verif.Props.LegacyClient
import Verif.Props.LegacyClose
import Verif.Props.LegacyConfig
import Verif.Props.LegacyDelivery
import Verif.Props.LegacyDrain
import Verif.Props.LegacyHandler
import Verif.Props.LegacyInterrupted
import Verif.Props.LegacyIter
import Verif.Props.LegacyKeepalive
import Verif.Props.LegacyLife
import Verif.Props.LegacyMemory
import Verif.Props.LegacyModels
import Verif.Props.LegacyOwner
import Verif.Props.LegacyPings
import Verif.Props.LegacyQueue
import Verif.Props.LegacyRead
import Verif.Props.LegacyRegistry
import Verif.Props.LegacyReplies
import Verif.Props.LegacySend
import Verif.Props.LegacyServe
import Verif.Props.LegacyServer
import Verif.Props.LegacyShutdown
import Verif.Props.LegacyStream
import Verif.Props.LegacySystem
import Verif.Props.LegacySystemEnds
import Verif.Props.LegacyTimed
import Verif.Props.LegacyTransfer
import Verif.Props.Lifecycle
import Verif.Props.MainThread
import Verif.Props.Output
import Verif.Props.Pmd
import Verif.Props.PmdMemory
import Verif.Props.Ready
import Verif.Props.Receive
import Verif.Props.Server
import Verif.Props.Session
import Verif.Props.SessionDeflate
import Verif.Props.Speedups
import Verif.Props.Streams
import Verif.Props.Terminal
import Verif.Props.Uri
import Verif.Props.UriAccept
import Verif.Props.UriParse
