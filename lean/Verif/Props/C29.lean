import Verif.Proofs.StreamShape
import Verif.Spec.StreamSamples

/-!
# C29: the stream delivers input bytes in order without loss, even when `next` is cancelled
-/

namespace ImapFlow

variable {σ ε ev ι : Type}

/-- The bytes passed to the state, followed by the bytes in the read buffer, are the bytes read from the
socket. -/
theorem C29_input {M : Machine σ ε ev ι} {s : σ} {as : List (StreamAct ι)} {c : StreamConf σ}
    {T : List (StreamItem ε ev ι)} (h : StreamConf.run M (.insecure s) as = some (c, T)) :
    streamDelivered T ++ c.readBuffer = streamRead T := by
  classical
  simpa [StreamConf.insecure] using (StreamConf.run_moves (StreamConf.insecure_ok s) h).input

/-- Unless the state panicked, everything that was read was passed to the state whenever the stream is
suspended or not in use; so a dropped future never keeps anything back. -/
theorem C29_nothing_kept {M : Machine σ ε ev ι} {s : σ} {as : List (StreamAct ι)} {c : StreamConf σ}
    {T : List (StreamItem ε ev ι)} (h : StreamConf.run M (.insecure s) as = some (c, T)) (hc : c.ctl ≠ .dead) :
    streamDelivered T = streamRead T := by
  have h1 := C29_input h
  rw [StreamConf.run_readBuffer rfl h hc, List.append_nil] at h1
  exact h1

/-- Whenever the state is called, it was given everything that was read. -/
theorem C29_poll {M : Machine σ ε ev ι} {s : σ} {as : List (StreamAct ι)} {c : StreamConf σ}
    {pre post : List (StreamItem ε ev ι)} {r : Except (Interrupt ε) ev}
    (h : StreamConf.run M (.insecure s) as = some (c, pre ++ .poll r :: post)) :
    streamDelivered pre = streamRead pre := by
  classical
  obtain ⟨as1, a, as2, c1, c2, T1, T2, q, q', -, h1, h2, -, rfl, -⟩ := StreamConf.run_split h
  have hin := (StreamConf.run_moves (StreamConf.insecure_ok s) h1).input
  simp only [StreamConf.insecure, List.nil_append] at hin
  obtain ⟨x, c0, q1, rfl, he, -, hadv⟩ := (StreamConf.step_shape h2).poll
  obtain ⟨e3, e4, -⟩ := ((StreamConf.advance_spec M c0).2.split hadv).1 r rfl
  rw [streamDelivered_append, streamRead_append]
  have e5 : streamDelivered (x :: q1) = c0.readBuffer := by
    rcases he with ⟨rfl, -⟩ | ⟨b, rfl, -⟩ | ⟨b, rfl, -⟩ <;> rw [← e3] <;> rfl
  rw [e5, ← hin]
  rcases he with ⟨rfl, -, h3, -⟩ | ⟨b, rfl, -, h3, -⟩ | ⟨b, rfl, -, h3, -⟩
  · rw [h3, show streamRead (.callNext :: q1) = [] from e4]; simp
  · rw [h3, show streamRead (.read b :: q1) = b ++ streamRead q1 from rfl, e4]; simp
  · rw [h3, show streamRead (.wrote b :: q1) = [] from e4]; simp

/-- The state is exactly the result of the recorded calls: those of its owner, the deliveries and the
polls of the stream, in order; nothing else touches it. -/
theorem C29_state [DecidableEq ε] [DecidableEq ev] {M : Machine σ ε ev ι} {s : σ} {as : List (StreamAct ι)}
    {c : StreamConf σ} {T : List (StreamItem ε ev ι)} (h : StreamConf.run M (.insecure s) as = some (c, T))
    (hc : c.ctl ≠ .dead) : M.replay s T = some c.state :=
  (StreamConf.run_moves (StreamConf.insecure_ok s) h).replay hc

/-- Three reads, one of them overtaking a write, with futures dropped in between. -/
example : ∃ c, StreamConf.run (clientMachine Toy.lib) StreamSample.start StreamSample.acts =
      some (c, StreamSample.items) ∧
    streamRead StreamSample.items = ClientSample.str "Ghi\r\n*d\r\n*e\r\n" ∧
    streamDelivered StreamSample.items = ClientSample.str "Ghi\r\n*d\r\n*e\r\n" := by
  obtain ⟨c, h⟩ := StreamSample.items_run
  exact ⟨c, h, by decide +kernel, by decide +kernel⟩

end ImapFlow
