import Verif.Spec.EasyNet
import Verif.Spec.HttpServer
import Verif.Spec.HttpClient
import Verif.Model.EasyHttp
/-! # What the user of `Easy_HTTP_Server` or `Easy_HTTP_Client` is expected to see -/
namespace Verif.EasyHttp
open Verif.Easy Verif.EasyNet
open Verif.Spec (Request)

/-- A session has been opened. -/
def opened : Event SMsg := { ty := .other, msg := some .open }

/-- A request has arrived. -/
def asked (r : Request) : Event SMsg := { ty := .other, msg := some (.request r.headers r.payload !r.keep) }

/-- A session of a client has been opened. -/
def connected : Event CMsg := { ty := .other, msg := some .open }

/-- A response has arrived. -/
def answered (r : Verif.Spec.Client.Response) : Event CMsg := { ty := .other, msg := some (.response r.headers r.body.flatten) }

/-- A session has been closed. -/
def ended {M : Type} (reason : Bytes) : Event M := { ty := .close, data := reason }

end Verif.EasyHttp
