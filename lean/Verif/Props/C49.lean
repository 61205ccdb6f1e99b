import Verif.Proofs.FullStreamClose
import Verif.Spec.FullSamples

/-!
# C49: `next` reports the end of a TLS connection (false; what holds instead)

A TLS connection is closed by `close_notify`, before the TCP connection is closed.  Then `next` does not
return: it does not even wait, it loops without suspending (C33).
-/

namespace ImapFlow

variable {K σ ε ev ι : Type}

/-- As soon as a `close_notify` has been read, `next` hangs, and nothing more happens on the stream: it is not
reported, the future cannot be dropped, output is not written and the end of the TCP connection is not seen.
For every connection, whatever is in front of the alert and behind it, and however it is split by the socket. -/
theorem C49_hangs {M : Machine σ ε ev ι} {t : Tls K} (hR : t.layer.Receives) (ht : t.Ready) {s : σ}
    {as : List (StreamAct ι)} {c : FullStream K σ} {T : List (FullItem ε ev ι)}
    (h : FullStream.run M (.secure t s) as = some (c, T)) {records more : Bytes} {cs : List RecordContent} {k : K}
    (hbytes : t.raw ++ streamRead (streamPart T) = records ++ more) (hrec : t.layer.Carries t.readKey records cs k)
    (hclose : RecordContent.closeNotify ∈ cs) :
    (∃ T', T = T' ++ [.hung]) ∧ ∀ a, c.step M a = none := by
  obtain ⟨h1, h2⟩ := FullStream.run_hangs h rfl rfl hR ht ⟨records, more, cs, k, hbytes, hrec, hclose⟩
  exact ⟨h2, fun a => FullStream.step_stopped a (.inr (.inl h1))⟩

/-- What holds: the end of the TCP connection is reported as `Closed`, with and without TLS. -/
theorem C49_partial {M : Machine σ ε ev ι} {c c' : FullStream K σ} {T : List (FullItem ε ev ι)}
    (h : c.step M (.read []) = some (c', T)) :
    T = [.stream (.read []), .stream (.returned (.error .closed))] ∧ c' = { c with ctl := .at .idle } := by
  simp only [FullStream.step] at h
  split at h
  · cases h; simp
  · cases h; simp
  · cases h

/-- ... and it can be seen whenever `next` waits. -/
theorem C49_waiting {M : Machine σ ε ev ι} {c : FullStream K σ} (h : c.ctl = .at .reading ∨ c.ctl = .at .racing) :
    ∃ c' T, c.step M (.read []) = some (c', T) := by
  rcases h with h | h <;> exact ⟨_, _, by rw [FullStream.step, h]⟩

namespace C49Sample

open ClientSample

/-- The peer sends a greeting and closes the connection. -/
def acts : List (StreamAct ClientOp) :=
  [.callNext, .read (str "Ghi\r" ++ [1]), .read (str "\n"), .callNext, .read [255]]

/-- What happens. -/
def items : List (FullItem ClientError ClientEvent ClientOp) :=
  [.callNext, .poll (.error (.io .needMoreInput)), .read (str "Ghi\r" ++ [1]), .deliver (str "Ghi\r"),
   .poll (.error (.io .needMoreInput)), .read (str "\n"), .deliver (str "\n"),
   .poll (.ok (.greetingReceived ⟨.ok, none, str "hi"⟩)), .returned (.ok (.greetingReceived ⟨.ok, none, str "hi"⟩)),
   .callNext, .poll (.error (.io .needMoreInput)), .read [255]].map .stream ++ [.hung]

theorem run_acts : (FullStream.run (clientMachine Toy.lib) FullSample.start acts).map (fun x => x.2) = some items := by
  decide +kernel

end C49Sample

/-- The claim is false: after a `close_notify` nothing is reported. -/
theorem C49_false : ¬ ∀ (t : Tls Nat) (as : List (StreamAct ClientOp)) (c : FullStream Nat Client)
    (T : List (FullItem ClientError ClientEvent ClientOp)) (records : Bytes) (cs : List RecordContent) (k : Nat),
    t.layer.Receives → t.Ready →
    FullStream.run (clientMachine Toy.lib) (.secure t (Client.new ClientSample.g .default)) as = some (c, T) →
    t.raw ++ streamRead (streamPart T) = records → t.layer.Carries t.readKey records cs k →
    RecordContent.closeNotify ∈ cs → .stream (.returned (.error .closed)) ∈ T := by
  intro H
  have h := C49Sample.run_acts
  cases hr : FullStream.run (clientMachine Toy.lib) FullSample.start C49Sample.acts with
  | none => rw [hr] at h; cases h
  | some x =>
    rw [hr] at h
    simp only [Option.map_some, Option.some.injEq] at h
    obtain ⟨c, T⟩ := x
    simp only at h
    subst h
    have := H FullSample.tls _ c _ (([4] ++ ClientSample.str "Ghi\r") ++ (([1] ++ ClientSample.str "\n") ++ ([255] ++ [])))
      [.data (ClientSample.str "Ghi\r"), .data (ClientSample.str "\n"), .closeNotify] 6 toyLayer_receives
      ⟨rfl, rfl, by decide, by decide⟩ hr (by decide +kernel)
      (.cons (k' := 4) (by decide +kernel) (.cons (k' := 5) (by decide +kernel) (.cons (by decide +kernel) (.nil _)))) (by simp)
    revert this
    decide +kernel

end ImapFlow
