import Verif.Proofs.FullStreamRun
import Verif.Spec.FullSamples

/-!
# C47: a stream with TLS delivers the plaintext of the records in order without loss, even when `next` is
cancelled
-/

namespace ImapFlow

variable {K σ ε ev ι : Type}

/-- However the records are split by the socket and whatever else happens: if the bytes read so far are valid
records without `close_notify`, followed by the beginning of a record, then `decrypt` has neither failed nor
hung, and (unless the state panicked) the state was given exactly the plaintext of the records, in order. -/
theorem C47_input {M : Machine σ ε ev ι} {t : Tls K} (hR : t.layer.Receives) (ht : t.Ready) {s : σ}
    {as : List (StreamAct ι)} {c : FullStream K σ} {T : List (FullItem ε ev ι)}
    (h : FullStream.run M (.secure t s) as = some (c, T)) {records part : Bytes} {cs : List RecordContent} {k : K}
    (hbytes : t.raw ++ streamRead (streamPart T) = records ++ part) (hrec : t.layer.Carries t.readKey records cs k)
    (hclose : RecordContent.closeNotify ∉ cs) (hpart : t.layer.unprotect k part = .incomplete) :
    (.hung ∉ T ∧ .broken ∉ T) ∧ (c.ctl ≠ .at .dead → streamDelivered (streamPart T) = plaintext cs) := by
  have hr : Receiver (some t) := by rintro _ ⟨⟩; exact ⟨hR, ht⟩
  obtain ⟨-, h1, h2⟩ := FullStream.run_recv h (by simp [FullStream.secure]) rfl hr
    (tls1 := some { t with readKey := k, raw := part }) (plain := plaintext cs)
    ⟨records, part, cs, k, hbytes, hrec, hclose, hpart, rfl, rfl⟩
  exact ⟨h1, fun hd => (h2 hd).2.2⟩

/-- Whenever the state is called, it was given the plaintext of everything that was read. -/
theorem C47_poll {M : Machine σ ε ev ι} {t : Tls K} (hR : t.layer.Receives) (ht : t.Ready) {s : σ}
    {as : List (StreamAct ι)} {c : FullStream K σ} {pre post : List (FullItem ε ev ι)} {r : Except (Interrupt ε) ev}
    (h : FullStream.run M (.secure t s) as = some (c, pre ++ .stream (.poll r) :: post)) {records part : Bytes}
    {cs : List RecordContent} {k : K}
    (hbytes : t.raw ++ streamRead (streamPart pre) = records ++ part) (hrec : t.layer.Carries t.readKey records cs k)
    (hclose : RecordContent.closeNotify ∉ cs) (hpart : t.layer.unprotect k part = .incomplete) :
    streamDelivered (streamPart pre) = plaintext cs := by
  have hr : Receiver (some t) := by rintro _ ⟨⟩; exact ⟨hR, ht⟩
  obtain ⟨as1, a, as2, c1, c2, T1, T2, q, q', -, h1, h2, -, rfl, -⟩ := FullStream.run_split h
  have hf : Feeds (some t) (some { t with readKey := k, raw := part }) (streamRead (streamPart (T1 ++ q))) (plaintext cs) :=
    ⟨records, part, cs, k, hbytes, hrec, hclose, hpart, rfl, rfl⟩
  rw [streamPart_append, streamRead_append] at hf
  obtain ⟨tls2, p1, p2, f1, f2, f3⟩ := hf.split hr
  obtain ⟨i1, -, i3⟩ := FullStream.run_recv h1 (by simp [FullStream.secure]) rfl hr f1
  have hd : c1.ctl ≠ .at .dead := by
    intro hd
    rw [FullStream.step_stopped a (.inl hd)] at h2
    cases h2
  obtain ⟨i4, i5, i6⟩ := i3 hd
  have hr1 := i4.receiver (f1.receiver hr)
  obtain ⟨tls3, f4, -⟩ := i4.feeds f2
  have hq : streamRead (streamPart (q ++ .stream (.poll r) :: q')) = streamRead (streamPart q) := by
    rw [streamPart_append, streamRead_append, streamPart_cons]
    show _ ++ streamRead (streamPart q') = _
    rw [FullStream.step_poll_tail h2, List.append_nil]
  rw [← hq] at f4
  have := ((FullStream.step_cases h2).recv i5 hr1 f4).poll r q q' rfl
  rw [streamPart_append, streamDelivered_append, i6, this.1, f3]

/-- The state is exactly the result of the recorded calls. -/
theorem C47_state [DecidableEq ε] [DecidableEq ev] {M : Machine σ ε ev ι} {t : Tls K} {s : σ} {as : List (StreamAct ι)}
    {c : FullStream K σ} {T : List (FullItem ε ev ι)} (h : FullStream.run M (.secure t s) as = some (c, T))
    (hc : c.ctl ≠ .at .dead) : M.replay s (streamPart T) = some c.state := FullStream.run_replay h hc

/-- Records that are split and joined by the socket, one of them without data, with a dropped future. -/
example : ∃ c, FullStream.run (clientMachine Toy.lib) FullSample.start FullSample.acts = some (c, FullSample.items) ∧
    streamRead (streamPart FullSample.items) = FullSample.input ∧
    streamDelivered (streamPart FullSample.items) = ClientSample.str "Ghi\r\n*d\r\n*" := by
  obtain ⟨c, h, hc⟩ := FullSample.items_run
  have hi : streamRead (streamPart FullSample.items) = FullSample.input := by decide +kernel
  refine ⟨c, h, hi, ?_⟩
  obtain ⟨records, part, cs, k, h1, h2, h3, h4, h5⟩ := FullSample.input_carries
  rw [← h5]
  exact (C47_input (t := FullSample.tls) toyLayer_receives ⟨rfl, rfl, by decide, by decide⟩ h (by rw [hi]; exact h1)
    h2 h3 h4).2 (by simp [hc])

end ImapFlow
