import Verif.Spec.FullTrace
import Verif.Spec.StreamSamples

/-!
# A concrete run of a stream with TLS

A client on a stream with TLS, with the record layer `toyLayer`: records are split and joined by the socket, a
record carries no data, futures are dropped, output is written in pieces.
-/

namespace ImapFlow.FullSample

open ClientSample

/-- The connection; it already holds the beginning of a record. -/
def tls : Tls Nat :=
  { layer := toyLayer, readSize := 2, limit := 8, readKey := 3, raw := [4], plain := [], closed := false, writeKey := 7
    sendable := [] }

/-- The client at the beginning. -/
def start : FullStream Nat Client := .secure tls (Client.new g .default)

/-- The environment of the sample. -/
def acts : List (StreamAct ClientOp) :=
  [.user (.enqueueCommand cmdC), .callNext, .read (str "Gh"), .drop, .callNext, .read (str "i\r" ++ [254, 1]),
   .read (str "\n"), .callNext, .write 3, .drop, .callFlush, .write 5, .write 4, .callNext,
   .callNext, .read ([5] ++ str "*d\r\n*" ++ [2] ++ str "e")]

/-- What is read. -/
def input : Bytes := str "Ghi\r" ++ [254, 1] ++ str "\n" ++ [5] ++ str "*d\r\n*" ++ [2] ++ str "e"

/-- What happens. -/
def items : List (FullItem ClientError ClientEvent ClientOp) :=
  [.user (.enqueueCommand cmdC),
   .callNext, .poll (.error (.io .needMoreInput)), .read (str "Gh"), .poll (.error (.io .needMoreInput)), .dropped,
   .callNext, .poll (.error (.io .needMoreInput)), .read (str "i\r" ++ [254, 1]), .deliver (str "Ghi\r"),
   .poll (.error (.io .needMoreInput)), .read (str "\n"), .deliver (str "\n"),
   .poll (.ok (.greetingReceived ⟨.ok, none, str "hi"⟩)), .returned (.ok (.greetingReceived ⟨.ok, none, str "hi"⟩)),
   .callNext, .poll (.error (.io (.output (str "C Cz\r\n")))), .wrote ([1] ++ str "C" ++ [1]), .dropped,
   .callFlush, .wrote (str " " ++ [1] ++ str "C" ++ [1] ++ str "z"), .wrote ([1] ++ str "\r" ++ [1] ++ str "\n"), .flushed (.ok ()),
   .callNext, .poll (.ok (.commandSent hA cmdC)), .returned (.ok (.commandSent hA cmdC)),
   .callNext, .poll (.error (.io .needMoreInput)), .read ([5] ++ str "*d\r\n*" ++ [2] ++ str "e"), .deliver (str "*d\r\n*"),
   .poll (.ok (.dataReceived (.other (str "d")))), .returned (.ok (.dataReceived (.other (str "d"))))].map .stream

theorem run_acts : (FullStream.run (clientMachine Toy.lib) start acts).map (fun x => (x.1.writeBuffer, x.1.ctl, x.2)) =
    some ([], .at .idle, items) := by decide +kernel

/-- The sample is a run. -/
theorem items_run : ∃ c, FullStream.run (clientMachine Toy.lib) start acts = some (c, items) ∧ c.ctl = .at .idle := by
  have h := run_acts
  cases hr : FullStream.run (clientMachine Toy.lib) start acts with
  | none => rw [hr] at h; cases h
  | some x =>
    rw [hr] at h
    simp only [Option.map_some, Option.some.injEq, Prod.mk.injEq] at h
    exact ⟨x.1, by rw [← h.2.2], h.2.1⟩

/-- What is read, as records. -/
theorem input_carries : ∃ records part cs k, tls.raw ++ input = records ++ part ∧
    tls.layer.Carries tls.readKey records cs k ∧ RecordContent.closeNotify ∉ cs ∧
    tls.layer.unprotect k part = .incomplete ∧ plaintext cs = str "Ghi\r\n*d\r\n*" := by
  refine ⟨([4] ++ str "Ghi\r") ++ ([254] ++ (([1] ++ str "\n") ++ (([5] ++ str "*d\r\n*") ++ []))), [2] ++ str "e",
    [.data (str "Ghi\r"), .other, .data (str "\n"), .data (str "*d\r\n*")], 7, by decide +kernel, ?_, by simp, by decide +kernel,
    by decide +kernel⟩
  exact .cons (k' := 4) (by decide +kernel) (.cons (k' := 5) (by decide +kernel) (.cons (k' := 6) (by decide +kernel)
    (.cons (by decide +kernel) (.nil _))))

end ImapFlow.FullSample
