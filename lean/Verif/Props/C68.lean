import Verif.Proofs.ClientStd
import Verif.Spec.ClientStdSamples

/-!
# C68: the example client without a stream

`/repo/examples/client_std.rs` with any server: the server may send anything, in any portions, and reads and writes may fail.
`StdRuns L g login x T`: a run from the start to the state `x` in which `T` happens.
-/

namespace ImapFlow

variable {L : Lib} {g : HandleGenerator} {login : Bytes} {x : StdClient} {T : List StdItem}

/-- It panics only if a read, a write or `next` fails: its `assert_eq!`s hold, and before the greeting there is never output.
The greeting comes first.  LOGIN is enqueued once, as soon as the greeting is there. -/
theorem C68_program (hL : L.Lawful) (h : StdRuns L g login x T) :
    (∀ p, .panicked p ∉ T) ∧ (∀ b, .unexpectedOutput b ∉ T) ∧
    (x.ctl = .dead ↔ .ioFailed ∈ T ∨ ∃ e, .nextFailed e ∈ T) ∧
    GreetedFirst (stdEvents T) ∧
    stdCalls T = if (stdEvents T).isEmpty then [] else [.enqueueCommand { tag := ascii "A1", body := .other login }] := by
  obtain ⟨A, hA⟩ := StdClient.runs_at hL h
  have hg := Client.greeting_first hL (B := []) (by simpa using hA.trace)
  refine ⟨hA.panicked, hA.unexpected, hA.dead, by rw [← hA.events]; exact hg.2, ?_⟩
  rw [← hA.calls, ← hA.events]
  have hI := hA.inv
  cases hv : x.vars with
  | greeting =>
    rw [hv] at hI
    have : A.filterMap CItem.event? = [] := Classical.byContradiction fun hn => by
      have h1 := hI.2.1
      rw [hg.1.2 hn] at h1
      cases h1
    rw [this, hI.2.2.2]
    rfl
  | running hd =>
    rw [hv] at hI
    rw [hI.2.2.2]
    simp [hg.1.1 hI.2.1, Examples.loginCommand]

/-- The bytes on the socket are LOGIN, or a beginning of it.  They are what the client handed out, except for what is just
being written.  When LOGIN is reported as sent, all of it has been written. -/
theorem C68_bytes (hL : L.Lawful) (h : StdRuns L g login x T) :
    (∃ A, (Client.new g .default).trace L (stdOps T) = .ok (x.client, A) ∧ stdWritten T <+: clientOutput A ∧
      (x.ctl ≠ .dead → clientOutput A = stdWritten T ++ x.unwritten)) ∧
    stdWritten T <+: wire (L.encodeCommand { tag := ascii "A1", body := .other login }) ∧
    ∀ hd cmd, .commandSent hd cmd ∈ stdEvents T →
      cmd = { tag := ascii "A1", body := .other login } ∧ stdWritten T = wire (L.encodeCommand cmd) := by
  obtain ⟨A, hA⟩ := StdClient.runs_at hL h
  obtain ⟨h1, h2⟩ := StdClient.login_output hL hA.trace hA.inv
  rw [hA.events] at h2
  exact ⟨⟨A, hA.trace, hA.written⟩, hA.written.1.trans h1, fun hd cmd hs => ⟨(h2 hd cmd hs).1, by
    rw [(h2 hd cmd hs).1]; exact StdClient.sent_written hL h hs⟩⟩

/-- At the end of the input the program does not stop: `read` returns no bytes, `next` asks for input again, and the program is
exactly where it was.  It repeats this as often as `read` returns no bytes. -/
theorem C68_spin (hL : L.Lawful) (h : StdRuns L g login x T) (hr : x.ctl = .reading) (n : Nat) :
    x.run L login (List.replicate n [.read [], .next]).flatten =
      some (x, (List.replicate n [StdItem.read [], .starved]).flatten) := by
  induction n with
  | zero => rfl
  | succ n ih =>
    rw [List.replicate_succ, List.flatten_cons, StdClient.run_append, StdClient.spin hL h hr]
    simp only [ih]
    rw [List.replicate_succ, List.flatten_cons]

/-! ## Concrete cases -/

example : ∃ x, StdRuns Toy.lib ClientSample.g (ClientSample.str "x") x StdSample.items ∧ x.ctl = .reading ∧
    (stdEvents StdSample.items).length = 3 ∧ stdWritten StdSample.items = ClientSample.ln "A1 Cx" := by
  obtain ⟨x, h1, h2⟩ := StdSample.of_result StdSample.acts_eq
  exact ⟨x, h1, h2, rfl, rfl⟩

/-- The server closes the connection: the program reads for ever. -/
example : ∃ x, x.ctl = .reading ∧ ∀ n, StdRuns Toy.lib ClientSample.g (ClientSample.str "x") x
    (StdSample.items ++ (List.replicate n [StdItem.read [], .starved]).flatten) := by
  obtain ⟨x, ⟨as, h1⟩, h2⟩ := StdSample.of_result StdSample.acts_eq
  refine ⟨x, h2, fun n => ⟨as ++ (List.replicate n [.read [], .next]).flatten, ?_⟩⟩
  rw [StdClient.run_append, h1]
  simp only [C68_spin Toy.lawful ⟨as, h1⟩ h2 n]

/-- A failing write: the beginning of LOGIN is on the socket, and the program panics. -/
example : ∃ x T, StdRuns Toy.lib ClientSample.g (ClientSample.str "x") x T ∧ x.ctl = .dead ∧ .ioFailed ∈ T ∧
    stdWritten T = ClientSample.str "A1" := by
  have h : StdSample.result (StdSample.acts.take 6 ++ [.writeFailed 2]) =
      some (.dead, StdSample.items.take 7 ++ [.written (ClientSample.str "A1"), .ioFailed]) := by decide +kernel
  obtain ⟨x, h1, h2⟩ := StdSample.of_result h
  exact ⟨x, _, h1, h2, by decide, by decide +kernel⟩

end ImapFlow
