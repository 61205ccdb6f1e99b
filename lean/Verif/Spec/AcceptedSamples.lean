import Verif.Spec.FullSamples
import Verif.Spec.Accepted

/-!
# A concrete run in which outputs are refused

The buffer limit of the connection is six bytes.  The first command fits; it is written partly, and the future of `next` is
dropped.  The second command is one byte too long.  The third command fits, but the records of the second one still wait in the
connection.  Then `flush` is called.
-/

namespace ImapFlow.AcceptedSample

open ClientSample

/-- The connection. -/
def tls : Tls Nat := { FullSample.tls with limit := 6 }

/-- A command that is too long. -/
def cmdD : Command := ⟨str "D", .other (str "zz")⟩

/-- The environment of the sample. -/
def acts : List (StreamAct ClientOp) :=
  [.user (.enqueueCommand cmdC), .user (.enqueueCommand cmdD), .user (.enqueueCommand cmdC), .callNext,
   .read (str "Ghi\r" ++ [1] ++ str "\n"), .callNext, .write 3, .drop, .callNext, .callNext, .callNext, .callNext, .callFlush,
   .write 5, .write 16]

/-- What happens before `flush` has succeeded. -/
def items : List (FullItem ClientError ClientEvent ClientOp) :=
  ([.user (.enqueueCommand cmdC), .user (.enqueueCommand cmdD), .user (.enqueueCommand cmdC),
    .callNext, .poll (.error (.io .needMoreInput)), .read (str "Ghi\r" ++ [1] ++ str "\n"), .deliver (str "Ghi\r\n"),
    .poll (.ok (.greetingReceived ⟨.ok, none, str "hi"⟩)), .returned (.ok (.greetingReceived ⟨.ok, none, str "hi"⟩)),
    .callNext, .poll (.error (.io (.output (str "C Cz\r\n")))), .wrote ([1] ++ str "C" ++ [1]), .dropped,
    .callNext, .poll (.ok (.commandSent hA cmdC)), .returned (.ok (.commandSent hA cmdC)),
    .callNext, .poll (.error (.io (.output (str "D Czz\r\n"))))].map .stream) ++ .refused ::
  (([.returned (.error .io),
    .callNext, .poll (.ok (.commandSent hB cmdD)), .returned (.ok (.commandSent hB cmdD)),
    .callNext, .poll (.error (.io (.output (str "C Cz\r\n"))))].map .stream) ++ .refused ::
  ([.returned (.error .io), .callFlush, .wrote (str " " ++ [1] ++ str "C" ++ [1] ++ str "z"),
    .wrote ([1, 13, 1, 10] ++ ([1] ++ str "D" ++ [1] ++ str " " ++ [1] ++ str "C" ++ [1] ++ str "z" ++ [1] ++ str "z" ++ [1, 13]))].map
      .stream))

theorem run_acts : (FullStream.run (clientMachine Toy.lib) (.secure tls (Client.new g .default)) acts).map (fun x => x.2) =
    some (items ++ [.stream (.flushed (.ok ()))]) := by decide +kernel

/-- What happens after the third command was refused, if `next` is called once more. -/
def rest : List (FullItem ClientError ClientEvent ClientOp) :=
  [.returned (.error .io), .callNext, .poll (.ok (.commandSent hC cmdC)), .returned (.ok (.commandSent hC cmdC)), .callFlush,
   .wrote (str " " ++ [1] ++ str "C" ++ [1] ++ str "z" ++ [1, 13, 1, 10] ++
      ([1] ++ str "D" ++ [1] ++ str " " ++ [1] ++ str "C" ++ [1] ++ str "z" ++ [1] ++ str "z" ++ [1, 13])),
   .flushed (.ok ())].map .stream

/-- Records of one byte. -/
theorem carries (b : Bytes) (k : Nat) :
    toyLayer.Carries k (b.flatMap fun x => [1, x]) ((b.map fun x => [x]).map .data) (k + b.length) := by
  induction b generalizing k with
  | nil => exact .nil k
  | cons x b ih =>
    have h := ih (k + 1)
    rw [show k + 1 + b.length = k + (x :: b).length by simp only [List.length_cons]; omega] at h
    exact .cons (r := [1, x]) (by simp [toyLayer]) h

/-- The sample is a run. -/
theorem items_run : ∃ c, FullStream.run (clientMachine Toy.lib) (.secure tls (Client.new g .default)) acts =
    some (c, items ++ .stream (.flushed (.ok ())) :: []) := by
  have h := run_acts
  cases hr : FullStream.run (clientMachine Toy.lib) (.secure tls (Client.new g .default)) acts with
  | none => rw [hr] at h; cases h
  | some x =>
    rw [hr] at h
    simp only [Option.map_some, Option.some.injEq] at h
    exact ⟨x.1, by rw [← h]⟩

end ImapFlow.AcceptedSample
