import Verif.Mem
import Verif.Sep
import Verif.Lib
import Verif.Pool
import Verif.Buffer.Model
import Verif.Buffer.Props
import Verif.Buffer.History
import Verif.Strings.Model
import Verif.Strings.Props
import Verif.Strings.JsonSpec
import Verif.Strings.Json
import Verif.Strings.Order
import Verif.Strings.History
import Verif.Crt.Model
import Verif.Crt.Spec
import Verif.Crt.Decimal
import Verif.Crt.Props
import Verif.Map.Model
import Verif.Map.Spec
import Verif.Map.Rep
import Verif.Map.Store
import Verif.Map.Props
import Verif.Map.Props2
import Verif.Map.History
import Verif.Map.Json
import Verif.Hist
import Verif.Const.Buffer
import Verif.Const.Threads
import Verif.Const.Map
import Verif.List.Model
import Verif.List.Props
import Verif.DList.Model
import Verif.DList.Props
import Verif.DList.History
import Verif.Vec.Model
import Verif.Vec.Props
import Verif.Vec.History
import Verif.Tac
import Verif.Base64.Model
import Verif.Base64.Spec
import Verif.Base64.Props
import Verif.Base64.Decode
import Verif.Url.Model
import Verif.Url.Spec
import Verif.Url.Props
import Verif.Tok.Model
import Verif.Tok.Spec
import Verif.Tok.Props
import Verif.Tok.History
import Verif.Headers.Model
import Verif.Headers.Spec
import Verif.Headers.Props
import Verif.Headers.History
import Verif.Gballoc.Model
import Verif.Gballoc.Spec
import Verif.Gballoc.Props
import Verif.Gballoc.History
import Verif.Gballoc.Threads
import Verif.Sha.Model
import Verif.Sha.Fips
import Verif.Sha.Spec
import Verif.Sha.Compress
import Verif.Sha.Stream
import Verif.Sha.Props
import Verif.Sha.Good
import Verif.Sha.History
import Verif.Sha.Examples
import Verif.Sha.Threads
import Verif.Hmac.Model
import Verif.Hmac.Spec
import Verif.Hmac.Props
import Verif.Hmac.Rfc
import Verif.Hmac.Sha256
import Verif.Hmac.Sha256Cor
import Verif.Sas.Model
import Verif.Sas.Spec
import Verif.Sas.Props
import Verif.Sas.Claim
import Verif.World
import Verif.Xio.Model
import Verif.Xio.Spec
import Verif.Xio.Props
import Verif.Xio.Demo
import Verif.Cond.Model
import Verif.Cond.Spec
import Verif.Cond.Props
import Verif.Tick.Model
import Verif.Tick.Spec
import Verif.Tick.Props
import Verif.Uid.Model
import Verif.Uid.Spec
import Verif.Uid.Props
import Verif.Thr.Model
import Verif.Thr.Spec
import Verif.Thr.Props
import Verif.Sock.Model
import Verif.Sock.Spec
import Verif.Sock.Props
import Verif.Sock.HSpec
import Verif.Sock.History
import Verif.Sock.Ledger
import Verif.Sock.Demo
import Verif.Sock.Told
import Verif.Sock.More
import Verif.Ex.Model
import Verif.Ex.Spec
import Verif.Ex.Opts
import Verif.Ex.Props
import Verif.Ex.Exec
import Verif.Ex.Loop
import Verif.Ex.Build
import Verif.Ex.HSpec
import Verif.Ex.History
import Verif.Ex.Ledger
import Verif.Ex.Demo
import Verif.Exs.Model
import Verif.Exs.Spec
import Verif.Exs.Props
import Verif.Exs.History
import Verif.Exs.Claim
import Verif.Game
import Verif.Tls.Model
import Verif.Tls.Spec
import Verif.Tls.Props
import Verif.Tls.Funcs
import Verif.Tls.Life
import Verif.Tls.Claim
import Verif.Tls.Ledger
import Verif.Tls.Demo
import Verif.Wolf.Model
import Verif.Wolf.Spec
import Verif.Wolf.Props
import Verif.Wolf.Funcs
import Verif.Wolf.Life
import Verif.Wolf.Claim
import Verif.Wolf.Ledger
import Verif.Wolf.Demo
import Verif.Curl.Spec
import Verif.Curl.Props
import Verif.Curl.Callback
import Verif.Curl.Exec
import Verif.Curl.Request
import Verif.Curl.HSpec
import Verif.Curl.History
import Verif.Curl.Ledger
import Verif.Curl.Demo
import Verif.Sync.Spec
import Verif.Sync.Inv
import Verif.Sync.Step
import Verif.Sync.Kept
import Verif.Sync.Claim
import Verif.Sync.Wake
import Verif.Sync.Demo
import Verif.Sync.Ports
import Verif.Tick.Win32
import Verif.Thr.Win32
import Verif.Thr.C11
import Verif.Thr.Mbed
import Verif.Cond.C11
import Verif.Schan.Model
import Verif.Schan.Spec
import Verif.Schan.Props
import Verif.Schan.Funcs
import Verif.Schan.Life
import Verif.Schan.Claim
import Verif.Schan.Ledger
import Verif.Schan.Demo
import Verif.Tick.Mbed
import Verif.Uid.Ports
import Verif.Ti.Model
import Verif.Ti.Spec
import Verif.Ti.Props
import Verif.Ti.Receive
import Verif.Ti.HSpec
import Verif.Ti.History
import Verif.Ti.Ledger
import Verif.Ti.Demo
import Verif.Mb.Model
import Verif.Mb.Spec
import Verif.Mb.Read
import Verif.Mb.Heads
import Verif.Mb.Body
import Verif.Mb.Send
import Verif.Mb.Exec
import Verif.Mb.Calls
import Verif.Mb.Theory
import Verif.Mb.HSpec
import Verif.Mb.History
import Verif.Mb.Ledger
import Verif.Mb.Demo
import Verif.Wc.Model
import Verif.Wc.Spec
import Verif.Wc.Props
import Verif.Wc.Compose
import Verif.Wc.HSpec
import Verif.Wc.History
import Verif.Wc.Ledger
import Verif.Wc.Demo
import Verif.Sw.Model
import Verif.Sw.Spec
import Verif.Sw.Props
import Verif.Sw.HSpec
import Verif.Sw.History
import Verif.Sw.Ledger
import Verif.Sw.Demo
import Verif.Sm.Model
import Verif.Sm.Spec
import Verif.Sm.Props
import Verif.Sm.HSpec
import Verif.Sm.History
import Verif.Sm.Ledger
import Verif.Sm.Demo
import Verif.Wh.Model
import Verif.Wh.Spec
import Verif.Wh.Props
import Verif.Wh.Receive
import Verif.Wh.Request
import Verif.Wh.HSpec
import Verif.Wh.History
import Verif.Wh.Ledger
import Verif.Wh.Claims
import Verif.Wh.Demo
import Verif.Wh.Cut
import Verif.Wce.HookClaims
import Verif.Wce.Model
import Verif.Wce.Spec
import Verif.Wce.Calls
import Verif.Wce.HSpec
import Verif.Wce.History
import Verif.Wce.Ledger
import Verif.Wce.Demo
import Verif.Plat.Props
import Verif.Asked
import Verif.Curl.Client
import Verif.Ex.Client
import Verif.Ti.Client
import Verif.Wh.Client
import Verif.Mb.Client
import Verif.Sock.AgainDemo
import Verif.Sock.AgainOrder
import Verif.Sock.Quiet
import Verif.Sock.AgainFlow
import Verif.Sock.AgainQuiet
import Verif.Sock.AgainEnd
import Verif.Xio.Socket
import Verif.Tick.Round
