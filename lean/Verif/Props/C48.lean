import Verif.Proofs.FullStreamRun
import Verif.Spec.FullSamples

/-!
# C48: a stream with TLS sends the output in order without loss, even when `next` is cancelled

As long as `encrypt` does not fail (`refused`), see also C34.
-/

namespace ImapFlow

variable {K σ ε ev ι : Type}

/-- What was written to the socket, followed by the write buffer, are records that a peer with the matching key
opens to exactly the bytes that the state handed out. -/
theorem C48_output {M : Machine σ ε ev ι} {t : Tls K} {paired : K → K → Prop} (hD : t.layer.Delivers paired) {kr : K}
    (hk : paired t.writeKey kr) (hs : t.sendable = []) {s : σ} {as : List (StreamAct ι)} {c : FullStream K σ}
    {T : List (FullItem ε ev ι)} (h : FullStream.run M (.secure t s) as = some (c, T)) (hr : .refused ∉ T) :
    ∃ (ds : List Bytes) (kr' : K),
      t.layer.Carries kr (streamWrote (streamPart T) ++ c.writeBuffer) (ds.map .data) kr' ∧
      ds.flatten = streamOutput (streamPart T) := by
  obtain ⟨⟨out, h1, h2⟩, -, -⟩ := FullStream.run_send h (FullStream.secure_sender hD hk hs) nofun hr
  cases ht : c.tls with
  | none => rw [ht] at h1; exact h1.elim
  | some t' =>
    rw [ht] at h1
    obtain ⟨ds, kr', h3, h4, -⟩ := h1.2.2.2 kr hk
    refine ⟨ds, kr', ?_, h4⟩
    rw [h2]
    exact h3

/-- While `next` only waits for input, everything the state handed out has been written. -/
theorem C48_waiting {M : Machine σ ε ev ι} {t : Tls K} {paired : K → K → Prop} (hD : t.layer.Delivers paired) {kr : K}
    (hk : paired t.writeKey kr) (hs : t.sendable = []) {s : σ} {as : List (StreamAct ι)} {c : FullStream K σ}
    {T : List (FullItem ε ev ι)} (h : FullStream.run M (.secure t s) as = some (c, T)) (hr : .refused ∉ T)
    (hc : c.ctl = .at .reading) :
    ∃ (ds : List Bytes) (kr' : K), t.layer.Carries kr (streamWrote (streamPart T)) (ds.map .data) kr' ∧
      ds.flatten = streamOutput (streamPart T) := by
  obtain ⟨-, -, h1⟩ := FullStream.run_send h (FullStream.secure_sender hD hk hs) nofun hr
  have h2 := C48_output hD hk hs h hr
  rwa [h1 hc, List.append_nil] at h2

/-- When `flush` succeeds, everything the state handed out has been written. -/
theorem C48_flush {M : Machine σ ε ev ι} {t : Tls K} {paired : K → K → Prop} (hD : t.layer.Delivers paired) {kr : K}
    (hk : paired t.writeKey kr) (hs : t.sendable = []) {s : σ} {as : List (StreamAct ι)} {c : FullStream K σ}
    {pre post : List (FullItem ε ev ι)}
    (h : FullStream.run M (.secure t s) as = some (c, pre ++ .stream (.flushed (.ok ())) :: post)) (hr : .refused ∉ pre) :
    ∃ (ds : List Bytes) (kr' : K), t.layer.Carries kr (streamWrote (streamPart pre)) (ds.map .data) kr' ∧
      ds.flatten = streamOutput (streamPart pre) := by
  obtain ⟨as1, a, as2, c1, c2, T1, T2, q, q', -, h1, h2, -, rfl, -⟩ := FullStream.run_split h
  simp only [List.mem_append, not_or] at hr
  have hS := FullStream.secure_sender hD hk hs
  obtain ⟨⟨o1, g1, -⟩, g2, g3⟩ := FullStream.run_send h1 hS nofun hr.1
  have hr2 : .refused ∉ q ++ FullItem.stream (.flushed (.ok ())) :: q' := by
    intro hm
    have hcase := FullStream.step_cases h2
    generalize hT : q ++ FullItem.stream (.flushed (.ok ())) :: q' = U at hcase hm
    have hm' : FullItem.stream (.flushed (.ok ())) ∈ U := by rw [← hT]; simp
    have key : ∀ {x U' c0 c3}, FullStream.Advanced M (c0 : FullStream K σ) c3 U' →
        q ++ FullItem.stream (.flushed (.ok ())) :: q' = .stream x :: U' → (∀ r, x ≠ .flushed r) → False := by
      intro x U' c0 c3 hU he hx
      have hmem : FullItem.stream (.flushed (.ok ())) ∈ FullItem.stream x :: U' := by rw [← he]; simp
      rcases List.mem_cons.1 hmem with h | h
      · injection h with h; exact hx _ h.symm
      · cases hU with
        | hung => simp at h
        | broken => simp at h
        | inputPanic => simp at h
        | nextPanic _ g => have := (FullStream.provides_quiet g).2.2.2.2 (.ok ()); simp [this] at h
        | @returned _ _ _ _ _ _ r _ g =>
          have := (FullStream.provides_quiet g).2.2.2.2 (.ok ())
          have := (FullStream.poll_items (ι := ι) r).2.2.2.2 (.ok ())
          simp_all
        | waits _ g => have := (FullStream.provides_quiet g).2.2.2.2 (.ok ()); simp [this] at h
        | refused _ g => have := (FullStream.provides_quiet g).2.2.2.2 (.ok ()); simp [this] at h
    cases hcase with
    | user => simp at hm
    | userPanic => simp at hm
    | callNext _ g => exact key g hT (by simp)
    | read _ _ g => exact key g hT (by simp)
    | written _ _ _ g => exact key g hT (by simp)
    | wrote _ _ _ g => rcases g with ⟨-, rfl, -⟩ | ⟨-, -, rfl, -⟩ <;> simp at hm
    | flush _ _ g => rcases g with ⟨-, rfl, -⟩ | ⟨-, rfl, -⟩ <;> simp at hm
    | ended _ g =>
      rcases g with ⟨-, rfl, rfl⟩ | ⟨-, rfl, rfl⟩ | ⟨-, rfl, rfl⟩ | ⟨-, rfl, rfl⟩ | ⟨-, rfl, rfl⟩ <;> simp at hm
    | dropped => simp at hm
  obtain ⟨hw, rfl⟩ := ((FullStream.step_cases h2).send g2 g3 hr2).flushed q q' rfl
  have hrun : FullStream.run M (.secure t s) (as1 ++ [a]) = some (c2, T1 ++ (q ++ [.stream (.flushed (.ok ()))])) :=
    FullStream.run_snoc h1 h2
  obtain ⟨ds, kr', e1, e2⟩ := C48_output hD hk hs hrun (by simp only [List.mem_append, not_or]; exact ⟨hr.1, hr.2, by simp⟩)
  refine ⟨ds, kr', ?_, ?_⟩
  · rw [hw, List.append_nil, ← List.append_assoc, streamPart_append, streamWrote_append] at e1
    simpa [streamPart, streamWrote, FullItem.stream?] using e1
  · rw [← List.append_assoc, streamPart_append, streamOutput_append] at e2
    simpa [streamPart, streamOutput, FullItem.stream?] using e2

/-- `encrypt` fails exactly if the state hands out more bytes at once than the buffer limit allows. -/
theorem C48_refused {M : Machine σ ε ev ι} {t : Tls K} {paired : K → K → Prop} (hD : t.layer.Delivers paired) {kr : K}
    (hk : paired t.writeKey kr) (hs : t.sendable = []) {s : σ} {as : List (StreamAct ι)} {c : FullStream K σ}
    {T : List (FullItem ε ev ι)} (h : FullStream.run M (.secure t s) as = some (c, T)) :
    .refused ∈ T ↔ ∃ b, .poll (.error (.io (.output b))) ∈ streamPart T ∧ t.limit < b.length := by
  have h1 := FullStream.run_too_long h (t := t) rfl nofun hD
  constructor
  · intro hm
    obtain ⟨b, h2, h3⟩ := h1.1 (FullStream.secure_sender hD hk hs) hm
    exact ⟨b, h3, h2⟩
  · rintro ⟨b, h2, h3⟩
    exact h1.2 b h3 h2

/-- The output is written in three pieces by `next` and `flush`, with a dropped future. -/
example : ∃ c, FullStream.run (clientMachine Toy.lib) FullSample.start FullSample.acts = some (c, FullSample.items) ∧
    .refused ∉ FullSample.items ∧ .stream (.flushed (.ok ())) ∈ FullSample.items ∧
    streamOutput (streamPart FullSample.items) = ClientSample.str "C Cz\r\n" := by
  obtain ⟨c, h, -⟩ := FullSample.items_run
  refine ⟨c, h, ?_, by decide +kernel, by decide +kernel⟩
  intro hm
  obtain ⟨b, h1, h2⟩ := (C48_refused (t := FullSample.tls) toyLayer_delivers (kr := 7) rfl rfl h).1 hm
  have h3 : ∀ i ∈ streamPart FullSample.items, ∀ b, i = .poll (.error (.io (.output b))) → b.length ≤ 8 := by
    have : (streamPart FullSample.items).all (fun i => match i with
      | .poll (.error (.io (.output b))) => decide (b.length ≤ 8)
      | _ => true) = true := by decide +kernel
    rw [List.all_eq_true] at this
    intro i hi b hb
    have := this i hi
    subst hb
    simpa using this
  exact absurd (h3 _ h1 b rfl) (Nat.not_le.2 h2)

/-- With a smaller limit the same output is refused. -/
example : ((FullStream.run (clientMachine Toy.lib)
    { FullSample.start with tls := some { FullSample.tls with limit := 5 } } (FullSample.acts.take 8)).map
      fun x => decide (.refused ∈ x.2)) = some true := by decide +kernel

end ImapFlow
