import Verif.Spec.ClientHistory
import Verif.Spec.ServerHistory

/-!
# A process with several clients or servers

All clients (and separately all servers) of a process share one `HandleGeneratorGenerator`
(`/repo/src/client.rs:24-25`, `/repo/src/server.rs:30-31`).  Any thread creates instances and calls
their methods in any order; every call has exclusive access to its instance (`&mut self`), and the
shared counter is only accessed by one atomic `fetch_add`, so an execution is an interleaving of these
steps.
-/

namespace ImapFlow

/-- A kind of objects with a handle generator. -/
structure HandleUser where
  State : Type
  Init : Type
  Op : Type
  Obs : Type
  new : HandleGenerator → Init → State
  call : State → Op → Except Panic (State × Obs)
  /-- the handle given to the user by a call that enqueued something -/
  handle : Obs → Option RawHandle

/-- One step of the process. -/
inductive ProcessOp (U : HandleUser) where
  | create (init : U.Init)
  | call (instanceIndex : Nat) (op : U.Op)

/-- The process. -/
structure Process (U : HandleUser) where
  generators : HandleGeneratorGenerator
  instances : List U.State

def Process.start (U : HandleUser) : Process U := { generators := .new, instances := [] }

/-- One step; reports which instance gave out which handle.  A call of an instance that does not
exist does nothing. -/
def Process.step {U : HandleUser} (P : Process U) : ProcessOp U → Except Panic (Process U × List (Nat × RawHandle))
  | .create init =>
    let (generators, g) := P.generators.generate
    .ok ({ generators, instances := P.instances ++ [U.new g init] }, [])
  | .call i op =>
    match P.instances[i]? with
    | none => .ok (P, [])
    | some s =>
      match U.call s op with
      | .error p => .error p
      | .ok (s, obs) =>
        .ok ({ P with instances := P.instances.set i s }, (U.handle obs).toList.map fun h => (i, h))

/-- The handles given out by an execution, with the index of the instance. -/
def Process.run {U : HandleUser} (P : Process U) : List (ProcessOp U) →
    Except Panic (Process U × List (Nat × RawHandle))
  | [] => .ok (P, [])
  | op :: ops =>
    match P.step op with
    | .error p => .error p
    | .ok (P, hs) =>
      match Process.run P ops with
      | .error p => .error p
      | .ok (P, hs') => .ok (P, hs ++ hs')

/-- Clients. -/
def clientUser (L : Lib) : HandleUser :=
  { State := Client, Init := ClientOptions, Op := ClientOp, Obs := ClientObs,
    new := Client.new, call := Client.call L,
    handle := fun
      | .enqueued h _ => some h
      | _ => none }

/-- Servers. -/
def serverUser (L : Lib) : HandleUser :=
  { State := Server, Init := ServerOptions × Greeting, Op := ServerOp, Obs := ServerObs,
    new := fun g i => Server.new g i.1 i.2, call := Server.call L,
    handle := fun
      | .enqueued h _ => some h
      | .authenticateContinue _ r | .idleAccept _ r => r.toOption
      | .authenticateFinish _ r | .idleReject _ r => r.toOption
      | _ => none }

end ImapFlow
