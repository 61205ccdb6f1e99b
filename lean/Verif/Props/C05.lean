import Verif.Proofs.ServerReads
import Verif.Spec.ServerSamples

/-!
# C05: the server never delivers a message longer than `max_command_size`
-/

namespace ImapFlow

/-- No delivered message and no discarded input is longer than the limit. -/
theorem C05_server_limit {L : Lib} {g : HandleGenerator} {o : ServerOptions} {gr : Greeting}
    {ops : List ServerOp} {s : Server} {T : List SItem} {i : SItem}
    (h : (Server.new g o gr).trace L ops = .ok (s, T)) (hi : i ∈ T) :
    i.taken.length ≤ o.maxCommandSize := by
  obtain ⟨T1, T2, rfl⟩ := List.append_of_mem hi
  have hg := Server.trace_guard h
  cases i with
  | received w e => exact hg.2.2.1
  | failed e rs => exact hg.2.2.1.length_le
  | _ => exact Nat.zero_le _

/-- `CommandTooLong` is reported exactly for the first `max_command_size` bytes of the unread input,
if they are an unfinished message. -/
theorem C05_server_too_long_is_limit {L : Lib} {g : HandleGenerator} {o : ServerOptions} {gr : Greeting}
    {ops : List ServerOp} {s : Server} {T1 T2 : List SItem} {w : Bytes} {rs : List ServerMessage}
    (h : (Server.new g o gr).trace L ops = .ok (s, T1 ++ .failed (.commandTooLong w) rs :: T2)) :
    w = (serverUnread T1).take o.maxCommandSize ∧ w.length = o.maxCommandSize ∧ rs = [] ∧
    (serverPhase T1).Unfinished L o w ∧ serverPhase T1 ≠ .idlePending := by
  obtain ⟨s1, hinv⟩ := Server.prefix_inv h
  have hg := Server.trace_guard h
  have hp := Server.taken_prefix hinv hg
  obtain ⟨-, -, hd, -⟩ := hg
  rw [ServerView.of_phase] at hd
  obtain ⟨h1, h2, h3⟩ := hd.tooLong
  refine ⟨?_, h1, h2, h3, ?_⟩
  · rw [← h1]
    exact List.prefix_iff_eq_take.mp hp
  · intro hx
    rw [hx] at hd
    exact hd

/-- Whenever the unread input starts with a message (or rejected line) that is longer than the limit,
the next thing read is `CommandTooLong` with the first `max_command_size` bytes. -/
theorem C05_server_rejects_long {L : Lib} {g : HandleGenerator} {o : ServerOptions} {gr : Greeting}
    {ops : List ServerOp} {s : Server} {T1 T2 : List SItem} {i : SItem} {w : Bytes}
    (h : (Server.new g o gr).trace L ops = .ok (s, T1 ++ i :: T2))
    (hw : w <+: serverUnread T1) (hu : (serverPhase T1).IsUnit L o w) (hm : o.maxCommandSize < w.length)
    (hi : i.reads = true) : i = .failed (.commandTooLong ((serverUnread T1).take o.maxCommandSize)) [] :=
  Server.reads_too_long h hw hu.complete hm hi

/-- The buffer of the server never holds more than what was given, and the server asks for more input
only if less than `max_command_size` bytes are unread (or it waits for the user to decide about IDLE). -/
theorem C05_server_asks_below_limit {L : Lib} {g : HandleGenerator} {o : ServerOptions} {gr : Greeting}
    {ops : List ServerOp} {s : Server} {T1 T2 : List SItem}
    (h : (Server.new g o gr).trace L ops = .ok (s, T1 ++ .starved :: T2)) (hp : serverPhase T1 ≠ .idlePending) :
    (serverUnread T1).length < o.maxCommandSize := by
  obtain ⟨-, hs, -⟩ := Server.trace_guard h
  rw [ServerView.of_phase, ServerView.of_unread] at hs
  generalize serverPhase T1 = ph at hs hp
  cases ph with
  | command => exact hs.2
  | authenticate => exact hs.2
  | idlePending => exact (hp rfl).elim
  | idle => exact hs.2

/-- A command of 57 bytes with a limit of 40 bytes. -/
example : ∃ T1 T2 : List SItem, ∃ w, ServerSample.commandTrace =
      T1 ++ .failed (.commandTooLong (ClientSample.str "F Cthis command is longer than forty byt")) [] :: T2 ∧
    w <+: serverUnread T1 ∧ w.length = 57 ∧ serverPhase T1 = .command ∧
    (serverPhase T1).IsUnit Toy.lib ServerSample.options w :=
  ⟨ServerSample.commandTrace.take 31, ServerSample.commandTrace.drop 32,
    ClientSample.ln "F Cthis command is longer than forty bytes and rejected", by decide +kernel,
    by decide +kernel, by decide +kernel, by decide +kernel,
    .inl ⟨⟨ClientSample.str "F", .other (ClientSample.str "this command is longer than forty bytes and rejected")⟩,
      [], _, rfl, .nil,
      ⟨ClientSample.str "F Cthis command is longer than forty bytes and rejected\r", by decide +kernel, by decide +kernel⟩,
      .inr ⟨ClientSample.str "F Cthis command is longer than forty bytes and rejected", by decide +kernel⟩,
      by decide +kernel⟩⟩

end ImapFlow
