import Verif.Proofs.ClientUnsent
import Verif.Proofs.Held
import Verif.Proofs.RelayTurn
import Verif.Proofs.Upgrade
import Verif.Props.C10

/-!
# What a stream with a client holds
-/

namespace ImapFlow

variable {K σ ε ev ι : Type} {L : Lib}

namespace FullStream

theorem Advanced.plain {M : Machine σ ε ev ι} {c c' : FullStream K σ} {T : List (FullItem ε ev ι)}
    (h : Advanced M c c' T) (hp : c.tls = none) :
    c'.tls = none ∧ (c'.ctl = .at .reading → c'.readBuffer = [] ∧ c'.writeBuffer = [] ∧ StreamNet.Asked (streamPart T)) := by
  cases h with
  | hung h1 => rw [hp] at h1; cases h1
  | broken h1 => rw [hp] at h1; cases h1
  | inputPanic h1 h2 h3 =>
    obtain ⟨rfl, rfl, rfl⟩ := h1.of_plain hp
    subst h3
    exact ⟨rfl, nofun⟩
  | nextPanic h1 h2 h3 h4 =>
    obtain ⟨rfl, rfl, rfl⟩ := h1.of_plain hp
    subst h4
    exact ⟨rfl, nofun⟩
  | returned h1 h2 h3 h4 h5 =>
    obtain ⟨rfl, rfl, rfl⟩ := h1.of_plain hp
    subst h5
    exact ⟨rfl, nofun⟩
  | @waits _ _ _ D _ _ io _ h1 h2 h3 h4 h5 =>
    obtain ⟨rfl, rfl, rfl⟩ := h1.of_plain hp
    simp only [handleOutput, Prod.mk.injEq, and_true] at h4
    subst h4
    subst h5
    refine ⟨rfl, fun hc => ?_⟩
    dsimp only at hc ⊢
    split at hc
    · rename_i he
      have he := List.isEmpty_iff.mp he
      exact ⟨rfl, he, D, io, by rw [streamPart_map], (List.append_eq_nil_iff.mp he).2⟩
    · cases hc
  | refused h1 h2 h3 h4 h5 =>
    obtain ⟨rfl, rfl, rfl⟩ := h1.of_plain hp
    simp [handleOutput] at h4

theorem Stepped.plain {M : Machine σ ε ev ι} {c c' : FullStream K σ} {T : List (FullItem ε ev ι)}
    (h : Stepped M c c' T) (hp : c.tls = none) :
    c'.tls = none ∧ (c'.ctl = .at .reading → c'.readBuffer = [] ∧ c'.writeBuffer = [] ∧ StreamNet.Asked (streamPart T)) := by
  have key : ∀ {x : StreamItem ε ev ι} {c1 : FullStream K σ} {T' : List (FullItem ε ev ι)}, Advanced M c1 c' T' → c1.tls = none →
      c'.tls = none ∧ (c'.ctl = .at .reading →
        c'.readBuffer = [] ∧ c'.writeBuffer = [] ∧ StreamNet.Asked (streamPart (.stream x :: T'))) := by
    intro x c1 T' ha ht
    obtain ⟨a, b⟩ := ha.plain ht
    refine ⟨a, fun hc => ?_⟩
    obtain ⟨b1, b2, b3⟩ := b hc
    refine ⟨b1, b2, ?_⟩
    rw [streamPart_cons]
    exact b3.append [x]
  cases h with
  | user h1 h2 h3 => subst h3; exact ⟨hp, fun hc => by cases h1.symm.trans hc⟩
  | userPanic h1 h2 h3 => subst h3; exact ⟨hp, nofun⟩
  | callNext h1 h2 => exact key h2 hp
  | read h1 h2 h3 => exact key h3 hp
  | written h1 h2 h3 h4 => exact key h4 hp
  | wrote h1 h2 h3 h4 =>
    rcases h4 with ⟨-, -, rfl⟩ | ⟨-, -, -, rfl⟩
    · exact ⟨hp, fun hc => by rcases h1 with h1 | h1 <;> cases h1.symm.trans hc⟩
    · exact ⟨hp, nofun⟩
  | flush h1 h2 h3 =>
    simp only [handleOutput, hp, Prod.mk.injEq] at h2
    obtain ⟨rfl, -⟩ := h2
    rcases h3 with ⟨-, -, rfl⟩ | ⟨-, -, rfl⟩
    · exact ⟨rfl, fun hc => by cases h1.symm.trans hc⟩
    · exact ⟨rfl, nofun⟩
  | ended h1 h2 => subst h1; exact ⟨hp, nofun⟩
  | dropped h1 h2 => subst h2; exact ⟨hp, nofun⟩

theorem run_plain_tls {M : Machine σ ε ev ι} {as : List (StreamAct ι)} {c c' : FullStream K σ} {T : List (FullItem ε ev ι)}
    (h : c.run M as = some (c', T)) (hp : c.tls = none) : c'.tls = none := by
  induction as generalizing c T with
  | nil => cases h; exact hp
  | cons a as ih =>
    obtain ⟨c1, T1, T2, h1, h2, rfl⟩ := run_cons h
    exact ih h2 ((step_cases h1).plain hp).1

/-- A stream without TLS that waits for input has neither input nor output, and its state has asked for input. -/
theorem run_plain {M : Machine σ ε ev ι} {as : List (StreamAct ι)} {c c' : FullStream K σ} {T : List (FullItem ε ev ι)}
    (h : c.run M as = some (c', T)) (hp : c.tls = none) (hi : c.ctl ≠ .at .reading) :
    c'.ctl = .at .reading → c'.readBuffer = [] ∧ c'.writeBuffer = [] ∧ StreamNet.Asked (streamPart T) := by
  intro hc
  rcases List.eq_nil_or_concat as with rfl | ⟨bs, a, rfl⟩
  · cases h
    exact absurd hc hi
  · rw [List.concat_eq_append, run_append] at h
    split at h
    · cases h
    rename_i c1 T1 h1
    split at h
    · cases h
    rename_i c2 T2 h2
    cases h
    obtain ⟨c3, T3, T4, h3, h4, rfl⟩ := run_cons h2
    cases h4
    have ht := run_plain_tls h1 hp
    obtain ⟨b1, b2, b3⟩ := ((step_cases h3).plain ht).2 hc
    refine ⟨b1, b2, ?_⟩
    rw [streamPart_append, List.append_nil]
    exact b3.append _

/-- The calls of the user are actions. -/
theorem run_user {M : Machine σ ε ev ι} {as : List (StreamAct ι)} {c c' : FullStream K σ} {T : List (FullItem ε ev ι)}
    (h : c.run M as = some (c', T)) {op : ι} (hm : .user op ∈ streamPart T) : .user op ∈ as := by
  induction as generalizing c T with
  | nil => cases h; cases hm
  | cons a as ih =>
    obtain ⟨c1, T1, T2, h1, h2, rfl⟩ := run_cons h
    rw [streamPart_append, List.mem_append] at hm
    rcases hm with hm | hm
    · have hs : ∃ (act : SideAct ι) (wire : Bytes), a = act.toStream wire := by
        cases a with
        | user op => exact ⟨.user op, [], rfl⟩
        | callNext => exact ⟨.callNext, [], rfl⟩
        | callFlush => exact ⟨.callFlush, [], rfl⟩
        | read b => exact ⟨.read b.length, b, by simp [SideAct.toStream]⟩
        | write n => exact ⟨.write n, [], rfl⟩
        | fail => exact ⟨.fail, [], rfl⟩
        | drop => exact ⟨.drop, [], rfl⟩
      obtain ⟨act, wire, rfl⟩ := hs
      obtain rfl := user_item h1 hm
      exact List.mem_cons_self
    · exact List.mem_cons_of_mem _ (ih h2 hm)

theorem Advanced.dead {M : Machine σ ε ev ι} {c c' : FullStream K σ} {T : List (FullItem ε ev ι)}
    (h : Advanced M c c' T) (hd : c'.ctl = .at .dead) : streamOutput (streamPart T) = [] := by
  cases h with
  | hung h1 h2 h3 => rfl
  | broken h1 h2 h3 => rfl
  | inputPanic h1 h2 h3 => rfl
  | nextPanic h1 h2 h3 h4 =>
    rw [streamPart_append, streamPart_map, streamOutput_append, (provides_quiet h2).1]
    rfl
  | returned h1 h2 h3 h4 h5 => subst h5; cases hd
  | waits h1 h2 h3 h4 h5 =>
    subst h5
    dsimp only at hd
    split at hd <;> cases hd
  | refused h1 h2 h3 h4 h5 => subst h5; cases hd

/-- A panic hands out nothing. -/
theorem Stepped.dead {M : Machine σ ε ev ι} {c c' : FullStream K σ} {T : List (FullItem ε ev ι)}
    (h : Stepped M c c' T) (hd : c'.ctl = .at .dead) : streamOutput (streamPart T) = [] := by
  cases h with
  | user h1 h2 h3 => rfl
  | userPanic h1 h2 h3 => rfl
  | callNext h1 h2 =>
    rw [streamPart_cons]
    exact h2.dead hd
  | read h1 h2 h3 =>
    rw [streamPart_cons]
    exact h3.dead hd
  | written h1 h2 h3 h4 =>
    rw [streamPart_cons]
    exact h4.dead hd
  | wrote h1 h2 h3 h4 =>
    rcases h4 with ⟨-, rfl, rfl⟩ | ⟨-, -, rfl, rfl⟩ <;> rfl
  | flush h1 h2 h3 =>
    rcases h3 with ⟨-, rfl, rfl⟩ | ⟨-, rfl, rfl⟩ <;> rfl
  | ended h1 h2 =>
    rcases h2 with ⟨-, rfl, rfl⟩ | ⟨-, rfl, rfl⟩ | ⟨-, rfl, rfl⟩ | ⟨-, rfl, rfl⟩ | ⟨-, rfl, rfl⟩ <;> rfl
  | dropped h1 h2 => rfl

theorem run_wanted {g : HandleGenerator} {o : ClientOptions} {tls : Option (Tls K)}
    {as : List (StreamAct ClientOp)} {c : FullStream K Client} {T : List (FullItem ClientError ClientEvent ClientOp)}
    (h : run (clientMachine L) ⟨tls, [], [], Client.new g o, .at .idle⟩ as = some (c, T)) :
    (streamOutput (streamPart T)).length ≤ wanted L (streamPart T) := by
  have key : ∀ {as c T}, run (clientMachine L) ⟨tls, [], [], Client.new g o, .at .idle⟩ as = some (c, T) → c.ctl ≠ .at .dead →
      (streamOutput (streamPart T)).length ≤ wanted L (streamPart T) := by
    intro as c T h hd
    have h1 := client_replay_unsent (run_replay h hd)
    have h2 : (Client.new g o).sendState.unsent L = 0 := rfl
    dsimp only at h1
    omega
  by_cases hd : c.ctl = .at .dead
  · rcases List.eq_nil_or_concat as with rfl | ⟨bs, a, rfl⟩
    · cases h
      cases hd
    · rw [List.concat_eq_append, run_append] at h
      split at h
      · cases h
      rename_i c1 T1 h1
      split at h
      · cases h
      rename_i c2 T2 h2
      cases h
      obtain ⟨c3, T3, T4, h3, h4, rfl⟩ := run_cons h2
      cases h4
      have h5 := key h1 (fun hd => by rw [step_stopped a (.inl hd)] at h3; cases h3)
      have h6 := (step_cases h3).dead hd
      rw [List.append_nil, streamPart_append, streamOutput_append, h6, List.append_nil]
      have e : wanted L (streamPart T1 ++ streamPart T3) = wanted L (streamPart T1) + wanted L (streamPart T3) := by
        simp [wanted]
      omega
  · exact key h hd

/-- Without TLS what was written and what waits to be written is what the state handed out. -/
theorem run_wrote {M : Machine σ ε ev ι} {s : σ} {as : List (StreamAct ι)} {c : FullStream K σ} {T : List (FullItem ε ev ι)}
    (h : run M (.insecure s) as = some (c, T)) : streamWrote (streamPart T) ++ c.writeBuffer = streamOutput (streamPart T) := by
  rw [run_insecure, Option.map_eq_some_iff] at h
  obtain ⟨⟨c0, T0⟩, h1, h2⟩ := h
  cases h2
  have := C30_output h1
  rw [streamPart_map]
  exact this

end FullStream

/-- The calls of a stream on a client, as a trace, with the record of the stream. -/
theorem client_replay_record {S : List (StreamItem ClientError ClientEvent ClientOp)} {s s' : Client}
    (h : (clientMachine L).replay s S = some s')
    (ho : StreamItem.user .next ∉ S ∧ ∀ b, StreamItem.user (.enqueueInput b) ∉ S) :
    ∃ U, s.trace L (clientOps S) = .ok (s', U) ∧ ClientRecord S U := by
  obtain ⟨U, h1, h2⟩ := client_items (n := ⟨s, Server.new ClientSample.g ServerSample.options ServerSample.greeting, [], streamDelivered S⟩)
    (rest := []) h (by simp) ho
  obtain ⟨U', h3, h4⟩ := client_net_trace (rest := []) (by simp) ho h1
  obtain rfl : U = U' := (List.map_inj_right fun a b h => by cases h; rfl).1 h3
  exact ⟨U, h4, h2⟩

/-- While a stream waits for input that its client has asked for, the client holds the beginning of a message. -/
theorem client_asked (hL : L.Lawful) {g : HandleGenerator} {o : ClientOptions} {tls : Option (Tls K)} {as : List (StreamAct ClientOp)}
    {c : FullStream K Client} {T : List (FullItem ClientError ClientEvent ClientOp)}
    (h : FullStream.run (clientMachine L) ⟨tls, [], [], Client.new g o, .at .idle⟩ as = some (c, T)) (hc : c.ctl = .at .reading)
    (h3 : StreamNet.Asked (streamPart T))
    (ho : StreamItem.user .next ∉ streamPart T ∧ ∀ b, StreamItem.user (.enqueueInput b) ∉ streamPart T) :
    ((∃ gr, .greetingReceived gr ∈ events (streamPart T)) → IsUnfinished (responseFraming L o.crlfRelaxed) c.state.buffer) ∧
    ((¬ ∃ gr, .greetingReceived gr ∈ events (streamPart T)) → IsUnfinished (greetingFraming L o.crlfRelaxed) c.state.buffer) := by
  obtain ⟨U, h4, h5⟩ := client_replay_record (FullStream.run_replay h (by rw [hc]; nofun)) ho
  obtain ⟨B, rfl⟩ := (h5.parked (c := c) fun _ => h3).starved hL hc h4
  obtain ⟨h6, h7⟩ := C10_client_starved hL h4
  have e : c.state.buffer = clientUnread B := by
    have hu := Client.Inv.unread (Client.trace_inv hL h4)
    rw [← hu]
    simp [clientUnread, clientGiven, clientTaken, CItem.given, CItem.taken]
  have hg : (∃ gr, .greetingReceived gr ∈ events (streamPart T)) ↔ clientGreeted B := by
    rw [FullStream.run_events h]
    have e2 : (streamPart T).filterMap (fun i => i.poll?.bind Except.toOption) = 
        (B ++ [CItem.starved]).filterMap fun i => i.result?.bind Except.toOption := by
      rw [← List.filterMap_filterMap, ← List.filterMap_filterMap, h5.results]
    rw [e2]
    simp only [clientGreeted, List.mem_filterMap, List.mem_append, List.mem_singleton]
    constructor
    · rintro ⟨gr, i, hi, he⟩
      rcases hi with hi | rfl
      · refine ⟨i, hi, gr, ?_⟩
        cases i <;> simp_all [CItem.result?, CItem.erase, CItem.event?, Except.toOption]
      · simp [CItem.result?, CItem.erase, Except.toOption] at he
    · rintro ⟨i, hi, gr, he⟩
      refine ⟨gr, i, .inl hi, ?_⟩
      cases i <;> simp_all [CItem.result?, CItem.erase, CItem.event?, Except.toOption]
  rw [e, hg]
  exact ⟨h6, h7⟩

/-- While a stream without TLS waits for input, the client holds the beginning of a message. -/
theorem client_waiting (hL : L.Lawful) {g : HandleGenerator} {o : ClientOptions} {as : List (StreamAct ClientOp)}
    {c : FullStream K Client} {T : List (FullItem ClientError ClientEvent ClientOp)}
    (h : FullStream.run (clientMachine L) (.insecure (Client.new g o)) as = some (c, T)) (hc : c.ctl = .at .reading)
    (ho : StreamItem.user .next ∉ streamPart T ∧ ∀ b, StreamItem.user (.enqueueInput b) ∉ streamPart T) :
    c.readBuffer = [] ∧ c.writeBuffer = [] ∧
    ((∃ gr, .greetingReceived gr ∈ events (streamPart T)) → IsUnfinished (responseFraming L o.crlfRelaxed) c.state.buffer) ∧
    ((¬ ∃ gr, .greetingReceived gr ∈ events (streamPart T)) → IsUnfinished (greetingFraming L o.crlfRelaxed) c.state.buffer) := by
  obtain ⟨h1, h2, h3⟩ := FullStream.run_plain h rfl nofun hc
  exact ⟨h1, h2, client_asked hL h hc h3 ho⟩

end ImapFlow
