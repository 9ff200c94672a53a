import Verif.Utility.Theorems
import Verif.Router.Theorems
import Verif.Router.TheoremsAccept
import Verif.Hpack.Theorems
import Verif.Hpack.TheoremsDecode
import Verif.H2.Theorems
import Verif.H2.TheoremsMore
import Verif.Stream.Theorems
import Verif.Ws.Theorems
import Verif.Context.Theorems
import Verif.Context.TheoremsProgress
import Verif.Date.Theorems
import Verif.Date.TheoremsLoose
import Verif.Static.Theorems
import Verif.Cookie.TheoremsJar
import Verif.Wire.TheoremsPipeline
import Verif.Parse.TheoremsBody
import Verif.Parse.TheoremsRead
import Verif.Rate.TheoremsMore
import Verif.Cors.Theorems
import Verif.Srv.TheoremsSend
import Verif.Srv.TheoremsGoaway
import Verif.Srv.TheoremsResp
import Verif.Srv.TheoremsProgress
import Verif.Srv.TheoremsLimit
import Verif.Srv.TheoremsRequest
import Verif.Srv.TheoremsFlood
import Verif.Srv.TheoremsSync
import Verif.Srv.TheoremsApp
import Verif.Srv.TheoremsRecv
import Verif.Auth.TheoremsHeader
import Verif.Auth.TheoremsAuth
import Verif.Auth.TheoremsToken
import Verif.Auth.TheoremsJwt
import Verif.Hdr.TheoremsAttr
import Verif.Hdr.TheoremsNeg
import Verif.Hdr.TheoremsComp
import Verif.Multi.Model
import Verif.Multi.Spec
import Verif.Multi.Lemmas
import Verif.Multi.Sim
import Verif.Multi.TheoremsCut
import Verif.Multi.Order
import Verif.Multi.Read
import Verif.Multi.TheoremsRead
import Verif.Multi.TheoremsWrite
import Verif.Route.Model
import Verif.Route.Spec
import Verif.Route.Lemmas
import Verif.Route.TheoremsDispatch
import Verif.Route.TheoremsHistory
import Verif.Cli.TheoremsRequests
import Verif.Cli.TheoremsDisconnect
import Verif.Cli.TheoremsConnect
import Verif.Cli.TheoremsProgress
import Verif.Cli.TheoremsFinish
import Verif.Cli.TheoremsBatch
import Verif.Cli.TheoremsOrigin
import Verif.Cli2.TheoremsRequests
import Verif.Cli2.TheoremsConnect
import Verif.Cli2.TheoremsGoaway
import Verif.Cli2.TheoremsQueue
import Verif.Cli2.TheoremsLive
import Verif.Valid.TheoremsSchema
import Verif.Valid.TheoremsSanitize
import Verif.Valid.TheoremsStrip
import Verif.Valid.TheoremsPath
import Verif.Valid.TheoremsParam
import Verif.Valid.TheoremsPolicy
import Verif.H3.TheoremsIn
import Verif.H3.TheoremsOut
import Verif.H3.TheoremsTx
import Verif.Cli3.TheoremsOnce
import Verif.Cli3.TheoremsConnect
import Verif.Cli3.TheoremsFree
import Verif.Cli3.TheoremsPolite
import Verif.Cli3.TheoremsClose
import Verif.Clp.TheoremsSend
import Verif.Clp.TheoremsStream
import Verif.Clp.TheoremsRecv
import Verif.Clp.TheoremsProgress
import Verif.Clp.TheoremsFields
import Verif.Clp.TheoremsExamples
import Verif.Wsc.Theorems
import Verif.Wsh.Theorems
import Verif.Wsh.TheoremsAccept
import Verif.Sv3.Theorems
import Verif.Sv3.TheoremsShut
import Verif.Adp.Theorems
import Verif.Frm.Theorems
import Verif.Cap.Theorems
import Verif.Sec.Theorems
import Verif.Bim.Theorems
import Verif.Se2.Theorems
