import Verif.Proofs.ClientHeld
import Verif.Proofs.HeldTls

/-!
# What a stream with a client and TLS holds
-/

namespace ImapFlow

variable {K σ ε ev ι : Type} {L : Lib}

namespace FullStream

/-- The connection is ready, unless `decrypt` did not end or failed. -/
structure Calm (n : Nat) (c : FullStream K σ) : Prop where
  sized : ∀ t, c.tls = some t → t.layer.Sized n
  ready : c.ctl ≠ .hung → c.ctl ≠ .broken → ∀ t, c.tls = some t → t.Ready

/-- What holds when a step ends at a `read`. -/
def Asks (c : FullStream K σ) (T : List (FullItem ε ev ι)) : Prop :=
  c.ctl = .at .reading → c.readBuffer = [] ∧ c.writeBuffer = [] ∧ StreamNet.Asked (streamPart T)

theorem Advanced.calm {M : Machine σ ε ev ι} {n : Nat} {c c' : FullStream K σ} {T : List (FullItem ε ev ι)}
    (h : Advanced M c c' T) (hs : ∀ t, c.tls = some t → t.layer.Sized n) (hr : ∀ t, c.tls = some t → t.Ready) :
    Calm n c' ∧ Asks c' T := by
  cases h with
  | hung h1 h2 h3 => subst h3; exact ⟨⟨hs, fun h => (h rfl).elim⟩, nofun⟩
  | broken h1 h2 h3 => subst h3; exact ⟨⟨hs, fun _ h => (h rfl).elim⟩, nofun⟩
  | inputPanic h1 h2 h3 =>
    obtain ⟨rfl, t2, -⟩ := h1.ready hs hr
    subst h3
    exact ⟨⟨fun t ht => (t2 t ht).1, fun _ _ t ht => (t2 t ht).2⟩, nofun⟩
  | nextPanic h1 h2 h3 h4 =>
    obtain ⟨rfl, t2, -⟩ := h1.ready hs hr
    subst h4
    exact ⟨⟨fun t ht => (t2 t ht).1, fun _ _ t ht => (t2 t ht).2⟩, nofun⟩
  | returned h1 h2 h3 h4 h5 =>
    obtain ⟨rfl, t2, -⟩ := h1.ready hs hr
    subst h5
    exact ⟨⟨fun t ht => (t2 t ht).1, fun _ _ t ht => (t2 t ht).2⟩, nofun⟩
  | @waits _ _ _ D _ _ io _ h1 h2 h3 h4 h5 =>
    obtain ⟨rfl, t2, -⟩ := h1.ready hs hr
    obtain ⟨u1, -, u3, -, u5⟩ := handleOutput_ready h4 t2
    dsimp only at u3
    subst h5
    refine ⟨⟨fun t ht => (u1 t ht).1, fun _ _ t ht => (u1 t ht).2⟩, fun hc => ?_⟩
    dsimp only at hc ⊢
    split at hc
    · rename_i he
      have he := List.isEmpty_iff.mp he
      exact ⟨u3, he, D, io, by rw [streamPart_map], u5 rfl he⟩
    · cases hc
  | refused h1 h2 h3 h4 h5 =>
    obtain ⟨rfl, t2, -⟩ := h1.ready hs hr
    obtain ⟨u1, -⟩ := handleOutput_ready h4 t2
    subst h5
    exact ⟨⟨fun t ht => (u1 t ht).1, fun _ _ t ht => (u1 t ht).2⟩, nofun⟩

theorem Stepped.calm {M : Machine σ ε ev ι} {n : Nat} {c c' : FullStream K σ} {T : List (FullItem ε ev ι)}
    (h : Stepped M c c' T) (hq : Calm n c) : Calm n c' ∧ Asks c' T := by
  have hn : ∀ {k}, c.ctl = .at k → ∀ t, c.tls = some t → t.Ready := fun hc =>
    hq.ready (by rw [hc]; nofun) (by rw [hc]; nofun)
  have key : ∀ {x : StreamItem ε ev ι} {c1 : FullStream K σ} {T' : List (FullItem ε ev ι)} {k}, c.ctl = .at k → Advanced M c1 c' T' →
      c1.tls = c.tls → Calm n c' ∧ Asks c' (.stream x :: T') := by
    intro x c1 T' k hk ha ht
    obtain ⟨a, b⟩ := ha.calm (n := n) (by rw [ht]; exact hq.sized) (by rw [ht]; exact hn hk)
    refine ⟨a, fun hc => ?_⟩
    obtain ⟨b1, b2, b3⟩ := b hc
    refine ⟨b1, b2, ?_⟩
    rw [streamPart_cons]
    exact b3.append [x]
  have same : ∀ {c1 : FullStream K σ} {k}, c.ctl = .at k → c1.tls = c.tls → Calm n c1 := fun hk e =>
    ⟨by rw [e]; exact hq.sized, fun _ _ => by rw [e]; exact hn hk⟩
  cases h with
  | user h1 h2 h3 => subst h3; exact ⟨same h1 rfl, fun hc => by cases h1.symm.trans hc⟩
  | userPanic h1 h2 h3 => subst h3; exact ⟨same h1 rfl, nofun⟩
  | callNext h1 h2 => exact key h1 h2 rfl
  | read h1 h2 h3 => rcases h1 with h1 | h1 <;> exact key h1 h3 rfl
  | written h1 h2 h3 h4 => exact key h1 h4 rfl
  | wrote h1 h2 h3 h4 =>
    rcases h4 with ⟨-, -, rfl⟩ | ⟨-, -, -, rfl⟩
    · rcases h1 with h1 | h1 <;> exact ⟨same h1 rfl, fun hc => by cases h1.symm.trans hc⟩
    · rcases h1 with h1 | h1 <;> exact ⟨same h1 rfl, nofun⟩
  | flush h1 h2 h3 =>
    obtain ⟨u1, -⟩ := handleOutput_ready h2 (fun t ht => ⟨hq.sized t ht, hn h1 t ht⟩)
    have e := (handleOutput_same_recv h2).2.2.2
    rcases h3 with ⟨-, -, rfl⟩ | ⟨-, -, rfl⟩
    · refine ⟨⟨fun t ht => (u1 t ht).1, fun _ _ t ht => (u1 t ht).2⟩, fun hc => ?_⟩
      rw [e, h1] at hc
      cases hc
    · exact ⟨⟨fun t ht => (u1 t ht).1, fun _ _ t ht => (u1 t ht).2⟩, nofun⟩
  | ended h1 h2 =>
    subst h1
    rcases h2 with ⟨h2 | h2, -⟩ | ⟨h2, -⟩ | ⟨h2, -⟩ | ⟨h2 | h2, -⟩ | ⟨h2, -⟩ <;> exact ⟨same h2 rfl, nofun⟩
  | dropped h1 h2 =>
    subst h2
    rcases h1 with h1 | h1 | h1 <;> exact ⟨same h1 rfl, nofun⟩

theorem run_calm {M : Machine σ ε ev ι} {n : Nat} {as : List (StreamAct ι)} {c c' : FullStream K σ} {T : List (FullItem ε ev ι)}
    (h : c.run M as = some (c', T)) (hq : Calm n c) (hi : c.ctl ≠ .at .reading) : Calm n c' ∧ Asks c' T := by
  have key : ∀ {as : List (StreamAct ι)} {c c' : FullStream K σ} {T : List (FullItem ε ev ι)}, c.run M as = some (c', T) → Calm n c →
      Calm n c' := by
    intro as
    induction as with
    | nil => intro c c' T h hq; cases h; exact hq
    | cons a as ih =>
      intro c c' T h hq
      obtain ⟨c1, T1, T2, h1, h2, rfl⟩ := run_cons h
      exact ih h2 ((step_cases h1).calm hq).1
  rcases List.eq_nil_or_concat as with rfl | ⟨bs, a, rfl⟩
  · cases h
    exact ⟨hq, fun hc => absurd hc hi⟩
  · rw [List.concat_eq_append, run_append] at h
    split at h
    · cases h
    rename_i c1 T1 h1
    split at h
    · cases h
    rename_i c2 T2 h2
    cases h
    obtain ⟨c3, T3, T4, h3, h4, rfl⟩ := run_cons h2
    cases h4
    obtain ⟨b1, b2⟩ := (step_cases h3).calm (key h1 hq)
    refine ⟨b1, fun hc => ?_⟩
    obtain ⟨d1, d2, d3⟩ := b2 hc
    refine ⟨d1, d2, ?_⟩
    rw [streamPart_append, List.append_nil]
    exact d3.append _

end FullStream

/-- While a stream with or without TLS waits for input, the client holds the beginning of a message. -/
theorem client_waiting_tls (hL : L.Lawful) {g : HandleGenerator} {o : ClientOptions} {tls : Option (Tls K)} {n : Nat}
    (ht : ∀ t, tls = some t → t.layer.Sized n ∧ t.Ready) {as : List (StreamAct ClientOp)}
    {c : FullStream K Client} {T : List (FullItem ClientError ClientEvent ClientOp)}
    (h : FullStream.run (clientMachine L) (.new tls (Client.new g o)) as = some (c, T)) (hc : c.ctl = .at .reading)
    (ho : StreamItem.user .next ∉ streamPart T ∧ ∀ b, StreamItem.user (.enqueueInput b) ∉ streamPart T) :
    c.readBuffer = [] ∧ c.writeBuffer = [] ∧ (∀ t, c.tls = some t → t.plain = [] ∧ t.raw.length < n) ∧
    ((∃ gr, .greetingReceived gr ∈ events (streamPart T)) → IsUnfinished (responseFraming L o.crlfRelaxed) c.state.buffer) ∧
    ((¬ ∃ gr, .greetingReceived gr ∈ events (streamPart T)) → IsUnfinished (greetingFraming L o.crlfRelaxed) c.state.buffer) := by
  have e0 : FullStream.new tls (Client.new g o) = ⟨tls, [], [], Client.new g o, .at .idle⟩ := by cases tls <;> rfl
  rw [e0] at h
  obtain ⟨hq, hk⟩ := FullStream.run_calm (n := n) h ⟨fun t h => (ht t h).1, fun _ _ t h => (ht t h).2⟩ nofun
  obtain ⟨h1, h2, h3⟩ := hk hc
  obtain ⟨h6, h7⟩ := client_asked hL h hc h3 ho
  refine ⟨h1, h2, fun t e => ?_, h6, h7⟩
  have h4 := hq.ready (by rw [hc]; nofun) (by rw [hc]; nofun) t e
  exact ⟨h4.plain, (hq.sized t e).limit h4.raw⟩

end ImapFlow
