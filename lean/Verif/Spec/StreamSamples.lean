import Verif.Spec.StreamTrace
import Verif.Spec.ClientSamples

/-!
# A concrete run of a stream

A client on a stream: futures are dropped, reads and writes are partial, a read overtakes a write, a flush
is dropped and repeated, a read fails, the peer closes the connection.
-/

namespace ImapFlow.StreamSample

open ClientSample

/-- The environment of the sample. -/
def acts : List (StreamAct ClientOp) :=
  [.user (.enqueueCommand cmdC), .callNext, .drop, .callNext, .read (str "Gh"), .read (str "i\r"), .drop, .callNext,
   .read (str "\n*d\r\n"), .callNext, .write 2, .read (str "*e"), .callFlush, .write 1, .drop, .callNext, .callNext,
   .read (str "\r\n"), .callFlush, .write 1, .write 2, .callNext, .fail, .callNext, .read []]

/-- What happens until the read overtakes the write. -/
def items1 : List (StreamItem ClientError ClientEvent ClientOp) :=
  [.user (.enqueueCommand cmdC),
   .callNext, .poll (.error (.io .needMoreInput)), .dropped,
   .callNext, .poll (.error (.io .needMoreInput)), .read (str "Gh"), .deliver (str "Gh"),
   .poll (.error (.io .needMoreInput)), .read (str "i\r"), .deliver (str "i\r"),
   .poll (.error (.io .needMoreInput)), .dropped,
   .callNext, .poll (.error (.io .needMoreInput)), .read (str "\n*d\r\n"), .deliver (str "\n*d\r\n"),
   .poll (.ok (.greetingReceived ⟨.ok, none, str "hi"⟩)), .returned (.ok (.greetingReceived ⟨.ok, none, str "hi"⟩)),
   .callNext, .poll (.error (.io (.output (str "C Cz\r\n")))), .wrote (str "C "), .read (str "*e"), .deliver (str "*e"),
   .poll (.ok (.commandSent hA cmdC))]

/-- What happens after `CommandSent` was reported. -/
def items2 : List (StreamItem ClientError ClientEvent ClientOp) :=
  [.callFlush, .wrote (str "C"), .dropped,
   .callNext, .poll (.ok (.dataReceived (.other (str "d")))), .returned (.ok (.dataReceived (.other (str "d")))),
   .callNext, .poll (.error (.io .needMoreInput)), .read (str "\r\n"), .deliver (str "\r\n"),
   .poll (.ok (.dataReceived (.other (str "e")))), .returned (.ok (.dataReceived (.other (str "e")))),
   .callFlush, .wrote (str "z"), .wrote (str "\r\n"), .flushed (.ok ()),
   .callNext, .poll (.error (.io .needMoreInput)), .failed, .returned (.error .io),
   .callNext, .poll (.error (.io .needMoreInput)), .read [], .returned (.error .closed)]

/-- The client at the beginning. -/
def start : StreamConf Client := .insecure (Client.new g .default)

/-- Everything that happens. -/
def items : List (StreamItem ClientError ClientEvent ClientOp) :=
  items1 ++ .returned (.ok (.commandSent hA cmdC)) :: items2

theorem run_acts : (StreamConf.run (clientMachine Toy.lib) start acts).map (fun x => (x.1.writeBuffer, x.1.ctl, x.2)) =
    some ([], .idle, items) := by decide +kernel

/-- The sample is a run. -/
theorem items_run : ∃ c, StreamConf.run (clientMachine Toy.lib) start acts = some (c, items) := by
  have h := run_acts
  cases hr : StreamConf.run (clientMachine Toy.lib) start acts with
  | none => rw [hr] at h; cases h
  | some x =>
    rw [hr] at h
    simp only [Option.map_some, Option.some.injEq, Prod.mk.injEq] at h
    exact ⟨x.1, by rw [← h.2.2]⟩

/-- The part of the sample that ends with `CommandSent`. -/
theorem run_acts1 : (StreamConf.run (clientMachine Toy.lib) start (acts.take 12)).map
    (fun x => (x.1.writeBuffer, x.1.ctl, x.2)) =
    some (str "Cz\r\n", .idle, items1 ++ [.returned (.ok (.commandSent hA cmdC))]) := by decide +kernel

end ImapFlow.StreamSample
