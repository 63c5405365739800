import Verif.Model.Binary
import Verif.Model.Compact
import Verif.Props.Binary
import Verif.Props.Compact
import Verif.Props.Fragmentation
import Verif.Props.Depth
import Verif.Props.Arbitrary
import Verif.Props.Unset
import Verif.Props.Transport
import Verif.Props.Header
import Verif.Props.Socket
import Verif.Props.Sasl
import Verif.Props.Rpc
import Verif.Props.Calls
import Verif.Props.Multiplex
import Verif.Props.Failed
import Verif.Props.Zlib
import Verif.Props.Nonblocking
import Verif.Props.Servers
import Verif.Props.Tornado
import Verif.Props.TornadoFrames
import Verif.Props.FrozenDict
import Verif.Props.Recursive
import Verif.Model.Twisted
import Verif.Spec.Twisted
import Verif.Proofs.Twisted
import Verif.Props.Twisted
import Verif.Model.TornadoClient
import Verif.Spec.TornadoClient
import Verif.Proofs.TornadoClient
import Verif.Props.TornadoClient
import Verif.Model.Names
import Verif.Spec.Names
import Verif.Props.Names
import Verif.Props.Http
import Verif.Props.Ssl
import Verif.Model.Json
import Verif.Spec.Rfc8259
import Verif.Spec.Json
import Verif.Proofs.JsonText
import Verif.Proofs.JsonLang
import Verif.Proofs.JsonRead
import Verif.Proofs.JsonLaws
import Verif.Proofs.JsonGood
import Verif.Proofs.JsonGrammar
import Verif.Props.Json
import Verif.Proofs.JsonSample
import Verif.Proofs.JsonFail
import Verif.Proofs.Whole
import Verif.Proofs.JsonWhole
import Verif.Props.JsonText
import Verif.Props.JsonReject
import Verif.Props.JsonTruncate
import Verif.Props.JsonDepth
import Verif.Proofs.JsonSafe
import Verif.Props.JsonArbitrary
import Verif.Props.JsonForeign
import Verif.Props.Fast
import Verif.Props.FastDecode
import Verif.Props.SimpleJson
import Verif.Props.Defaults
import Verif.Props.Refuse
import Verif.Props.Locals
import Verif.Props.Attrs
import Verif.Props.TwistedServer
import Verif.Props.TornadoServer
import Verif.Props.Source
import Verif.Props.Numbers
import Verif.Props.Consts
import Verif.Props.ConstTypes
import Verif.Props.Enums
import Verif.Props.IntEnum
import Verif.Model.HttpServer
import Verif.Spec.HttpServer
import Verif.Proofs.HttpServer
import Verif.Props.HttpServer
import Verif.Model.HeaderProtocol
import Verif.Spec.HeaderProtocol
import Verif.Proofs.HeaderProtocol
import Verif.Props.HeaderProtocol
import Verif.Model.Structs
import Verif.Spec.Structs
import Verif.Proofs.Structs
import Verif.Props.Structs
import Verif.Spec.Versions
import Verif.Proofs.Versions
import Verif.Props.Versions
import Verif.Model.Audit
import Verif.Spec.Audit
import Verif.Proofs.Audit
import Verif.Props.Audit
import Verif.Model.ServerSocket
import Verif.Spec.ServerSocket
import Verif.Props.ServerSocket
import Verif.Model.JsonProto
import Verif.Spec.AnyProtocol
import Verif.Props.AnyProtocol
import Verif.Model.CReadable
import Verif.Spec.CReadable
import Verif.Proofs.CReadable
import Verif.Props.CReadable
import Verif.Model.Includes
import Verif.Spec.Includes
import Verif.Proofs.Includes
import Verif.Proofs.IncludesNames
import Verif.Proofs.IncludesPython
import Verif.Proofs.IncludesClash
import Verif.Props.Includes
import Verif.Model.TwistedSasl
import Verif.Props.TwistedSasl
import Verif.Model.Repr
import Verif.Props.Repr
import Verif.Model.Remote
import Verif.Props.Remote
import Verif.Model.HttpUrl
import Verif.Props.HttpUrl
import Verif.Model.Doc
import Verif.Props.Doc
import Verif.Model.Decorator
import Verif.Props.Decorator
import Verif.Props.AnyMultiplex
import Verif.Model.Callbacks
import Verif.Spec.Callbacks
import Verif.Props.Callbacks
import Verif.Model.Hints
import Verif.Spec.Hints
import Verif.Props.Hints
import Verif.Model.Equal
import Verif.Spec.Equal
import Verif.Props.Equal
import Verif.Model.Copies
import Verif.Spec.Copies
import Verif.Props.Copies
import Verif.Spec.IntText
import Verif.Props.IntText
import Verif.Spec.Base64
import Verif.Props.Base64
import Verif.Props.CompactBool
