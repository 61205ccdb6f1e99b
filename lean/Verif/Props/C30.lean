import Verif.Proofs.StreamShape
import Verif.Spec.StreamSamples

/-!
# C30: the stream writes output bytes in order without loss, even when `next` is cancelled
-/

namespace ImapFlow

variable {σ ε ev ι : Type}

/-- The bytes written to the socket, followed by the bytes in the write buffer, are the bytes the state
handed out. -/
theorem C30_output {M : Machine σ ε ev ι} {s : σ} {as : List (StreamAct ι)} {c : StreamConf σ}
    {T : List (StreamItem ε ev ι)} (h : StreamConf.run M (.insecure s) as = some (c, T)) :
    streamWrote T ++ c.writeBuffer = streamOutput T := by
  classical
  simpa [StreamConf.insecure] using (StreamConf.run_moves (StreamConf.insecure_ok s) h).output

/-- When `flush` succeeds, everything the state handed out has been written. -/
theorem C30_flush {M : Machine σ ε ev ι} {s : σ} {as : List (StreamAct ι)} {c : StreamConf σ}
    {pre post : List (StreamItem ε ev ι)}
    (h : StreamConf.run M (.insecure s) as = some (c, pre ++ .flushed (.ok ()) :: post)) :
    streamWrote pre = streamOutput pre := by
  classical
  obtain ⟨as1, a, as2, c1, c2, T1, T2, q, q', -, h1, h2, -, rfl, -⟩ := StreamConf.run_split h
  have hrun : StreamConf.run M (.insecure s) (as1 ++ [a]) = some (c2, T1 ++ (q ++ .flushed (.ok ()) :: q')) := by
    rw [StreamConf.run_append, h1]
    simp [StreamConf.run, h2]
  have hout := C30_output hrun
  have hs := StreamConf.step_shape h2
  generalize hT : q ++ .flushed (.ok ()) :: q' = U at hs
  have hm : .flushed (.ok ()) ∈ U := by rw [← hT]; simp
  cases hs with
  | enters x c0 he hc =>
    cases q with
    | nil =>
      injection hT with e1 e2
      exact (he.not_poll.2.2.1 _ e1.symm).elim
    | cons y q =>
      injection hT with e1 e2
      exact (((StreamConf.advance_spec M c0).2.split e2.symm).2.2.2.2.2 _ rfl).elim
  | closed x _ hx => rcases hx with rfl | rfl <;> simp at hm
  | failed => simp at hm
  | flushed T _ hw hx =>
    rw [hT, hw, List.append_nil] at hout
    have key : q = T ∧ q' = [] := by
      rcases hx with rfl | ⟨b, _, rfl⟩
      · cases q with
        | nil => simp at hT
        | cons y q => cases q <;> simp_all
      · cases q with
        | nil => simp at hT
        | cons y q => cases q <;> simp_all
    obtain ⟨rfl, rfl⟩ := key
    rw [← List.append_assoc, streamWrote_append, streamOutput_append] at hout
    simpa [streamWrote, streamOutput] using hout
  | notFlushed x e _ hx => rcases hx with ⟨rfl, rfl⟩ | ⟨rfl, rfl⟩ <;> simp at hm
  | single x hx => rcases hx with rfl | rfl | ⟨op, rfl⟩ | ⟨b, _, rfl⟩ <;> simp at hm
  | panic op p => simp at hm

/-- While `next` only waits for input, everything the state handed out has been written. -/
theorem C30_waiting {M : Machine σ ε ev ι} {s : σ} {as : List (StreamAct ι)} {c : StreamConf σ}
    {T : List (StreamItem ε ev ι)} (h : StreamConf.run M (.insecure s) as = some (c, T)) (hc : c.ctl = .reading) :
    streamWrote T = streamOutput T := by
  classical
  have h1 := C30_output h
  rw [(StreamConf.run_moves (StreamConf.insecure_ok s) h).reading hc, List.append_nil] at h1
  exact h1

/-- The output is written in four pieces by `next` and by two calls of `flush`, one of them dropped. -/
example : ∃ c, StreamConf.run (clientMachine Toy.lib) StreamSample.start StreamSample.acts =
      some (c, StreamSample.items) ∧
    streamOutput StreamSample.items = ClientSample.str "C Cz\r\n" ∧
    streamWrote StreamSample.items = ClientSample.str "C Cz\r\n" ∧
    .flushed (.ok ()) ∈ StreamSample.items := by
  obtain ⟨c, h⟩ := StreamSample.items_run
  exact ⟨c, h, by decide +kernel, by decide +kernel, by decide +kernel⟩

end ImapFlow
