import Verif.Spec.Service

/-!
# The clients of a service, and what is done for one of them

Reads off an execution of the process which clients were accepted, in order, and what the environment did with the task of one
client.
-/

namespace ImapFlow

variable {K : Type}

/-- A client of service `i` is ready to be served: its connection was accepted, or with TLS, its handshake is done. -/
def DaemonAct.client? (bindTls : Bool) (i : Nat) : DaemonAct K → Option (Option (Tls K))
  | .service i' (.accepted _) => if i' = i ∧ bindTls = false then some none else none
  | .service i' (.secured t) => if i' = i then some (some t) else none
  | _ => none

/-- The connections of the clients of service `i`, in the order in which they became ready to be served. -/
def readyClients (bindTls : Bool) (i : Nat) (as : List (DaemonAct K)) : List (Option (Tls K)) :=
  as.filterMap (DaemonAct.client? bindTls i)

/-- What the environment did with task `j` of service `i`. -/
def DaemonAct.own? (i j : Nat) : DaemonAct K → Option (TaskAct K)
  | .task i' j' act => if i' = i ∧ j' = j then some act else none
  | _ => none

/-- What the environment did with task `j` of service `i`. -/
def ownActs (i j : Nat) (as : List (DaemonAct K)) : List (TaskAct K) := as.filterMap (DaemonAct.own? i j)

/-- The life of a task: `tc` is the connection of its client, `acts` is what the environment did with it, and `items` is what
happened in the conversation. -/
inductive Life (L : Lib) (config : ServiceConfig) (tc : Option (Tls K)) : List (TaskAct K) → Task K → List ProxyItem → Prop where
  /-- nothing was done yet -/
  | connecting : Life L config tc [] (.connecting tc) []
  /-- the server cannot be reached -/
  | unreachable : Life L config tc [.connectFailed] .failed []
  /-- the name of the server cannot be used for TLS -/
  | invalid (gc gs) : config.connectTls = true → config.hostValid = false → Life L config tc [.connected gc gs] .panicked []
  /-- the handshake with the server is pending -/
  | handshaking (gc gs) : config.connectTls = true → config.hostValid = true →
      Life L config tc [.connected gc gs] (.handshaking tc) []
  /-- the handshake with the server has failed -/
  | distrusted (gc gs) : config.connectTls = true → config.hostValid = true →
      Life L config tc [.connected gc gs, .handshakeFailed] .failed []
  /-- the conversation without TLS to the server -/
  | insecure (gc gs acts q items) : config.connectTls = false → (Proxy.start tc none gc).run L gs acts = some (q, items) →
      Life L config tc (.connected gc gs :: acts.map .proxy) (.talking gs q) items
  /-- the conversation with TLS to the server -/
  | secure (gc' gs' t gc gs acts q items) : config.connectTls = true → config.hostValid = true →
      (Proxy.start tc (some t) gc).run L gs acts = some (q, items) →
      Life L config tc (.connected gc' gs' :: .secured t gc gs :: acts.map .proxy) (.talking gs q) items

end ImapFlow
