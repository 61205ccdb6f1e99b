import Verif.Model.Examples
import Verif.Model.ClientStd
import Verif.Model.Proxy

/-!
# What ends a stream, a program or a session for good
-/

namespace ImapFlow

variable {ε ev ι : Type}

/-- The state of a stream panicked. -/
def StreamItem.ends : StreamItem ε ev ι → Bool
  | .panicked _ => true
  | _ => false

/-- The state of a stream panicked, or the TLS connection is broken, or `decrypt` does not end. -/
def FullItem.ends : FullItem ε ev ι → Bool
  | .stream item => item.ends
  | .broken | .hung => true
  | .refused => false

/-- A program panics: `next` of its stream panicked or returned an error, or one of its methods or assertions failed. -/
def ProgramItem.ends : ProgramItem ε ev ι → Bool
  | .stream (.stream item) => item.ends
  | .stream _ => false
  | .line _ => false
  | .nextFailed _ | .panicked _ => true

/-- `client_std.rs` panics. -/
def StdItem.ends : StdItem → Bool
  | .ioFailed | .nextFailed _ | .unexpectedOutput _ | .panicked _ => true
  | _ => false

/-- The task of a session panics, or never yields again. -/
def ProxyItem.ends : ProxyItem → Bool
  | .client item => item.ends
  | .server item => item.ends
  | .clientTls item | .serverTls item => item = .hung
  | .panicked _ => true

end ImapFlow
