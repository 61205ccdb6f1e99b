import Verif.Proofs.FullStreamReturns
import Verif.Proofs.StreamShape
import Verif.Spec.FullSamples
import Verif.Spec.StreamSamples

/-!
# C32: a closed connection is reported as `Closed`; events and errors of the state are returned at once
-/

namespace ImapFlow

variable {σ ε ev ι : Type}

/-- What `next` returns is explained by what happened immediately before: an event or an error by the same
result of the state, `Closed` by a read or write of zero bytes, an I/O error by an error of the socket. -/
theorem C32_returned {M : Machine σ ε ev ι} {s : σ} {as : List (StreamAct ι)} {c : StreamConf σ}
    {pre post : List (StreamItem ε ev ι)} {r : Except (StreamError ε) ev}
    (h : StreamConf.run M (.insecure s) as = some (c, pre ++ .returned r :: post)) :
    ∃ pre' b, pre = pre' ++ [b] ∧ b.Explains r := by
  classical
  obtain ⟨as1, a, as2, c1, c2, T1, T2, q, q', -, h1, h2, -, rfl, -⟩ := StreamConf.run_split h
  rcases (StreamConf.step_shape h2).returned with ⟨x, c0, q1, rfl, -, -, hadv⟩ | ⟨y, rfl, hy, -⟩
  · obtain ⟨⟨q2, y, rfl, hy⟩, -⟩ := ((StreamConf.advance_spec M c0).2.split hadv).2.1 r rfl
    exact ⟨T1 ++ x :: q2, y, by simp, hy⟩
  · exact ⟨T1, y, rfl, hy⟩

/-- An event of the state is returned at once. -/
theorem C32_event {M : Machine σ ε ev ι} {s : σ} {as : List (StreamAct ι)} {c : StreamConf σ}
    {pre post : List (StreamItem ε ev ι)} {e : ev}
    (h : StreamConf.run M (.insecure s) as = some (c, pre ++ .poll (.ok e) :: post)) :
    ∃ post', post = .returned (.ok e) :: post' := by
  classical
  obtain ⟨as1, a, as2, c1, c2, T1, T2, q, q', -, h1, h2, -, rfl, rfl⟩ := StreamConf.run_split h
  obtain ⟨x, c0, q1, rfl, -, -, hadv⟩ := (StreamConf.step_shape h2).poll
  obtain ⟨-, -, -, e1, -⟩ := ((StreamConf.advance_spec M c0).2.split hadv).1 _ rfl
  exact ⟨T2, by rw [(e1 e rfl).1]; rfl⟩

/-- An error of the state is returned at once. -/
theorem C32_error {M : Machine σ ε ev ι} {s : σ} {as : List (StreamAct ι)} {c : StreamConf σ}
    {pre post : List (StreamItem ε ev ι)} {e : ε}
    (h : StreamConf.run M (.insecure s) as = some (c, pre ++ .poll (.error (.error e)) :: post)) :
    ∃ post', post = .returned (.error (.state e)) :: post' := by
  classical
  obtain ⟨as1, a, as2, c1, c2, T1, T2, q, q', -, h1, h2, -, rfl, rfl⟩ := StreamConf.run_split h
  obtain ⟨x, c0, q1, rfl, -, -, hadv⟩ := (StreamConf.step_shape h2).poll
  obtain ⟨-, -, -, -, e1, -⟩ := ((StreamConf.advance_spec M c0).2.split hadv).1 _ rfl
  exact ⟨T2, by rw [e1 e rfl]; rfl⟩

/-- A socket that returns zero bytes or fails ends the pending call at once: `next` with `Closed`, `flush`
with `Closed` or the I/O error. -/
theorem C32_closed {M : Machine σ ε ev ι} {s : σ} {as : List (StreamAct ι)} {c : StreamConf σ}
    {pre post : List (StreamItem ε ev ι)} {x : StreamItem ε ev ι}
    (h : StreamConf.run M (.insecure s) as = some (c, pre ++ x :: post)) :
    (x = .read [] → ∃ post', post = .returned (.error .closed) :: post') ∧
    (x = .wrote [] → ∃ post', post = .returned (.error .closed) :: post' ∨ post = .flushed (.error .closed) :: post') ∧
    (x = .failed → ∃ post', post = .returned (.error .io) :: post' ∨ post = .flushed (.error .io) :: post') := by
  classical
  obtain ⟨as1, a, as2, c1, c2, T1, T2, q, q', -, h1, h2, -, rfl, rfl⟩ := StreamConf.run_split h
  have hs := StreamConf.step_shape h2
  have key : ∀ y z : StreamItem ε ev ι, q ++ x :: q' = [y, z] → (x = y ∧ q' = [z]) ∨ x = z := by
    intro y z hT
    cases q with
    | nil =>
      injection hT with e1 e2
      exact Or.inl ⟨e1, e2⟩
    | cons w q =>
      injection hT with e1 e2
      cases q with
      | nil =>
        injection e2 with e2 e3
        exact Or.inr e2
      | cons v q =>
        have := congrArg List.length e2
        simp at this
  have single : ∀ y : StreamItem ε ev ι, q ++ x :: q' = [y] → x = y := by
    intro y hT
    cases q with
    | nil =>
      injection hT with e1 e2
    | cons w q =>
      injection hT with e1 e2
      simp at e2
  generalize hT : q ++ x :: q' = U at hs
  cases hs with
  | enters y c0 he hc =>
    have hx : x ≠ .read [] ∧ x ≠ .wrote [] ∧ x ≠ .failed := by
      cases q with
      | nil =>
        injection hT with e1 e2
        subst e1
        exact ⟨he.not_poll.2.2.2.2.1, he.not_poll.2.2.2.2.2, he.not_poll.2.2.2.1⟩
      | cons w q =>
        injection hT with e1 e2
        obtain ⟨-, -, e3, e4, e5, -⟩ := (StreamConf.advance_spec M c0).2.split e2.symm
        exact ⟨e3 _, e4 _, e5⟩
    exact ⟨fun h => (hx.1 h).elim, fun h => (hx.2.1 h).elim, fun h => (hx.2.2 h).elim⟩
  | closed y _ hx =>
    rcases key _ _ hT with ⟨rfl, rfl⟩ | rfl
    · rcases hx with rfl | rfl
      · exact ⟨fun _ => ⟨T2, rfl⟩, fun h => (by cases h), fun h => (by cases h)⟩
      · exact ⟨fun h => (by cases h), fun _ => ⟨T2, Or.inl rfl⟩, fun h => (by cases h)⟩
    · exact ⟨fun h => (by cases h), fun h => (by cases h), fun h => (by cases h)⟩
  | failed =>
    rcases key _ _ hT with ⟨rfl, rfl⟩ | rfl
    · exact ⟨fun h => (by cases h), fun h => (by cases h), fun _ => ⟨T2, Or.inl rfl⟩⟩
    · exact ⟨fun h => (by cases h), fun h => (by cases h), fun h => (by cases h)⟩
  | flushed T _ hw hx =>
    have : x ≠ .read [] ∧ x ≠ .wrote [] ∧ x ≠ .failed := by
      rcases hx with rfl | ⟨b, hb, rfl⟩
      · rcases key _ _ hT with ⟨rfl, -⟩ | rfl <;> simp
      · rcases key _ _ hT with ⟨rfl, -⟩ | rfl
        · simp [hb]
        · simp
    exact ⟨fun h => (this.1 h).elim, fun h => (this.2.1 h).elim, fun h => (this.2.2 h).elim⟩
  | notFlushed y e _ hx =>
    rcases key _ _ hT with ⟨rfl, rfl⟩ | rfl
    · rcases hx with ⟨rfl, rfl⟩ | ⟨rfl, rfl⟩
      · exact ⟨fun h => (by cases h), fun _ => ⟨T2, Or.inr rfl⟩, fun h => (by cases h)⟩
      · exact ⟨fun h => (by cases h), fun h => (by cases h), fun _ => ⟨T2, Or.inr rfl⟩⟩
    · exact ⟨fun h => (by cases h), fun h => (by cases h), fun h => (by cases h)⟩
  | single y hx =>
    have := single _ hT
    subst this
    have : x ≠ .read [] ∧ x ≠ .wrote [] ∧ x ≠ .failed := by
      rcases hx with rfl | rfl | ⟨op, rfl⟩ | ⟨b, hb, rfl⟩ <;> first | (simp; done) | simp [hb]
    exact ⟨fun h => (this.1 h).elim, fun h => (this.2.1 h).elim, fun h => (this.2.2 h).elim⟩
  | panic op p =>
    have : x ≠ .read [] ∧ x ≠ .wrote [] ∧ x ≠ .failed := by
      rcases key _ _ hT with ⟨rfl, -⟩ | rfl <;> simp
    exact ⟨fun h => (this.1 h).elim, fun h => (this.2.1 h).elim, fun h => (this.2.2 h).elim⟩

/-- The same with and without TLS: what `next` returns is explained by what happened immediately before.  There is one
more explanation: `next` returns an I/O error if rustls refuses the plaintext (see C48). -/
theorem C32_full_returned {K : Type} {M : Machine σ ε ev ι} {c c' : FullStream K σ} {as : List (StreamAct ι)}
    {pre post : List (FullItem ε ev ι)} {r : Except (StreamError ε) ev}
    (h : FullStream.run M c as = some (c', pre ++ .stream (.returned r) :: post)) :
    ∃ pre' b, pre = pre' ++ [b] ∧ b.Explains r := by
  obtain ⟨⟨y, h1, h2⟩, -⟩ := (FullStream.run_neighbours h).at
  obtain ⟨z, rfl, hz⟩ := h1.returned r rfl
  rcases h2 z rfl with ⟨-, h3⟩ | ⟨pre', h3⟩
  · cases h3
  · exact ⟨pre', z, h3, hz⟩

/-- The same with and without TLS: events and errors of the state, the end of the connection, errors of the socket and
refused plaintext are returned at once. -/
theorem C32_full_at_once {K : Type} {M : Machine σ ε ev ι} {c c' : FullStream K σ} {as : List (StreamAct ι)}
    {pre post : List (FullItem ε ev ι)} {x : FullItem ε ev ι}
    (h : FullStream.run M c as = some (c', pre ++ x :: post)) :
    (∀ e, x = .stream (.poll (.ok e)) → ∃ post', post = .stream (.returned (.ok e)) :: post') ∧
    (∀ e, x = .stream (.poll (.error (.error e))) → ∃ post', post = .stream (.returned (.error (.state e))) :: post') ∧
    (x = .stream (.read []) → ∃ post', post = .stream (.returned (.error .closed)) :: post') ∧
    (x = .stream (.wrote []) → ∃ post', post = .stream (.returned (.error .closed)) :: post' ∨
      post = .stream (.flushed (.error .closed)) :: post') ∧
    (x = .stream .failed → ∃ post', post = .stream (.returned (.error .io)) :: post' ∨
      post = .stream (.flushed (.error .io)) :: post') ∧
    (x = .refused → ∃ post', post = .stream (.returned (.error .io)) :: post') := by
  obtain ⟨-, hn⟩ := (FullStream.run_neighbours h).at
  have head : ∀ {y : FullItem ε ev ι}, post.head? = some y → ∃ post', post = y :: post' := by
    intro y hy
    cases post with
    | nil => cases hy
    | cons z post => cases hy; exact ⟨post, rfl⟩
  refine ⟨?_, ?_, ?_, ?_, ?_, ?_⟩
  · rintro e rfl; exact head (hn.event e rfl)
  · rintro e rfl; exact head (hn.error e rfl)
  · rintro rfl; exact head (hn.read rfl)
  · rintro rfl
    rcases hn.wrote rfl with h1 | h1
    · obtain ⟨post', h2⟩ := head h1; exact ⟨post', Or.inl h2⟩
    · obtain ⟨post', h2⟩ := head h1; exact ⟨post', Or.inr h2⟩
  · rintro rfl
    rcases hn.failed rfl with h1 | h1
    · obtain ⟨post', h2⟩ := head h1; exact ⟨post', Or.inl h2⟩
    · obtain ⟨post', h2⟩ := head h1; exact ⟨post', Or.inr h2⟩
  · rintro rfl; exact head (hn.refused rfl)

/-- Events, an I/O error and `Closed` are returned. -/
example : ∃ c, StreamConf.run (clientMachine Toy.lib) StreamSample.start StreamSample.acts =
      some (c, StreamSample.items) ∧
    .returned (.ok (.commandSent ClientSample.hA ClientSample.cmdC)) ∈ StreamSample.items ∧
    .returned (.error .io) ∈ StreamSample.items ∧ .returned (.error .closed) ∈ StreamSample.items := by
  obtain ⟨c, h⟩ := StreamSample.items_run
  exact ⟨c, h, by decide +kernel, by decide +kernel, by decide +kernel⟩

/-- With TLS: refused plaintext and the end of the connection are returned. -/
example : ((FullStream.run (clientMachine Toy.lib)
    { FullSample.start with tls := some { FullSample.tls with limit := 5 } }
    (FullSample.acts.take 8 ++ [.callNext, .callNext, .write 3, .read []])).map fun x => x.2.drop 15) =
  some [.stream .callNext, .stream (.poll (.error (.io (.output (ClientSample.str "C Cz\r\n"))))), .refused,
    .stream (.returned (.error .io)), .stream .callNext,
    .stream (.poll (.ok (.commandSent ClientSample.hA ClientSample.cmdC))),
    .stream (.returned (.ok (.commandSent ClientSample.hA ClientSample.cmdC))), .stream .callNext,
    .stream (.poll (.error (.io .needMoreInput))), .stream (.wrote ([1] ++ ClientSample.str "C" ++ [1])),
    .stream (.read []), .stream (.returned (.error .closed))] := by decide +kernel

end ImapFlow
