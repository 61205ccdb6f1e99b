import Verif.Spec.Config
import Verif.Spec.ServiceSamples
import Verif.Spec.Imap

/-!
# A sample configuration
-/

namespace ImapFlow.ConfigSample

def first : ServiceEntry :=
  { name := ascii "first", bind := .insecure (ascii "[::]") 143, connect := .insecure (ascii "imap.example.org") 143 }

def second : ServiceEntry :=
  { name := ascii "second", bind := .tls (ascii "[::]") 993 ⟨ascii "localhost.pem", ascii "localhost-key.pem"⟩,
    connect := .insecure (ascii "imap.example.org") 143 }

/-- A client of the first service that could be bound. -/
def acts : List (DaemonAct Nat) :=
  [.service 0 (.accepted true), .service 0 (.secured ProxyTlsSample.tc), .task 0 0 (.connected ClientSample.g ProxySample.gs)]

/-- The address of the first service is in use. -/
def start : Daemon Nat := .main 1 (fun _ => true) (fun a => a != ascii "[::]:143") [first, second]

theorem run_acts : ∃ p T, start.run Toy.lib acts = some (p, T) ∧ ServiceSample.stages p = [[.talking .greeting]] :=
  ServiceSample.of_stages (by decide +kernel)

end ImapFlow.ConfigSample
