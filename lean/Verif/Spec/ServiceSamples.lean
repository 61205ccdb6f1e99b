import Verif.Spec.Service
import Verif.Spec.ProxyTlsSamples

/-!
# Concrete runs of the process
-/

namespace ImapFlow.ServiceSample

open ClientSample (g)

/-- TLS on both sides. -/
def secure : ServiceConfig := { bindTls := true, connectTls := true, hostValid := true }

/-- No TLS. -/
def insecure : ServiceConfig := { bindTls := false, connectTls := false, hostValid := true }

/-- TLS to a server whose name is not valid. -/
def invalid : ServiceConfig := { bindTls := false, connectTls := true, hostValid := false }

/-- A client connects to the service with TLS and its task to the server. -/
def join (j : Nat) : List (DaemonAct Nat) :=
  [.service 0 (.accepted true), .service 0 (.secured ProxyTlsSample.tc), .task 0 j (.connected g ProxySample.gs),
   .task 0 j (.secured ProxyTlsSample.ts g ProxySample.gs)]

/-- What the peers of a conversation do. -/
def talk (i j : Nat) (as : List ProxyAct) : List (DaemonAct Nat) := as.map fun a => .task i j (.proxy a)

/-- Three services. -/
def start (workers : Nat) : Daemon Nat := .start workers [secure, insecure, invalid]

/-- Two clients of the first service, one of them with a failed handshake in between, one of the second that makes the
proxy panic, one of the third whose task panics, one whose server cannot be reached. -/
def acts : List (DaemonAct Nat) :=
  join 0 ++ [.service 0 (.accepted false), .service 0 (.accepted true), .service 0 .handshakeFailed,
    .service 1 (.accepted true), .service 2 (.accepted true), .task 1 0 (.connected g ProxySample.gs)] ++
  talk 0 0 (ProxyTlsSample.talk.take 9) ++ join 1 ++ talk 1 0 ProxySample.early ++
  [.task 2 0 (.connected g ProxySample.gs), .service 1 (.accepted true), .task 1 1 .connectFailed] ++
  talk 0 1 ProxyTlsSample.talk ++ talk 0 0 (ProxyTlsSample.talk.drop 9)

/-- The first client ends its connection while the second one is served. -/
def leave : List (DaemonAct Nat) :=
  join 0 ++ join 1 ++ talk 0 1 ProxyTlsSample.talk ++ talk 0 0 ProxyTlsSample.close

/-- The state of a task. -/
inductive TaskStage where
  | connecting | handshaking | failed | panicked
  | talking (stage : ProxySample.Stage)
  deriving DecidableEq

def taskStage : Task Nat → TaskStage
  | .connecting _ => .connecting
  | .handshaking _ => .handshaking
  | .failed => .failed
  | .panicked => .panicked
  | .talking _ q => .talking (ProxySample.stage q)

/-- The states of all tasks. -/
def stages (p : Daemon Nat) : List (List TaskStage) := p.services.map fun s => s.tasks.map taskStage

theorem of_stages {x : Option (Daemon Nat × List DaemonItem)} {l : List (List TaskStage)}
    (h : (x.map fun x => stages x.1) = some l) : ∃ p T, x = some (p, T) ∧ stages p = l := by
  cases x with
  | none => cases h
  | some x => exact ⟨x.1, x.2, rfl, by simpa using h⟩

theorem run_acts : ∃ p T, (start 1).run Toy.lib acts = some (p, T) ∧
    stages p = [[.talking .conversation, .talking .conversation], [.talking .dead, .failed], [.panicked]] :=
  of_stages (by decide +kernel)

theorem run_leave (workers : Nat) (hw : workers = 1 ∨ workers = 2) : ∃ p T, (start workers).run Toy.lib leave = some (p, T) ∧
    stages p = [[.talking .hung, .talking .conversation], [], []] := by
  rcases hw with rfl | rfl
  · exact of_stages (by decide +kernel)
  · exact of_stages (by decide +kernel)

end ImapFlow.ServiceSample
