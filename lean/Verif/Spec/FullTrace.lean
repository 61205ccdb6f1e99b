import Verif.Model.FullStream
import Verif.Spec.StreamTrace
import Verif.Spec.TlsRecords

/-!
# Observing the whole stream
-/

namespace ImapFlow

variable {ε ev ι : Type}

/-- What also happens without TLS. -/
def FullItem.stream? : FullItem ε ev ι → Option (StreamItem ε ev ι)
  | .stream item => some item
  | _ => none

/-- Everything except failures of `encrypt` and `decrypt`; the projections of `Spec/StreamTrace.lean` apply:
`streamRead` and `streamWrote` are the bytes on the socket, `streamDelivered` and `streamOutput` are plaintext. -/
def streamPart (T : List (FullItem ε ev ι)) : List (StreamItem ε ev ι) := T.filterMap FullItem.stream?

end ImapFlow
