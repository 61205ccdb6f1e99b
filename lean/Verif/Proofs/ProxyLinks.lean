import Verif.Proofs.ProxySides
import Verif.Proofs.StreamClient

/-!
# A client or server on a stream, its trace and what was observed
-/

namespace ImapFlow

/-! ## Projections -/

section
variable {K σ ε ev ι : Type}

theorem streamEvents_append (T U : List (StreamItem ε ev ι)) : streamEvents (T ++ U) = streamEvents T ++ streamEvents U := by
  simp [streamEvents]

theorem streamCalls_append (T U : List (StreamItem ε ev ι)) : streamCalls (T ++ U) = streamCalls T ++ streamCalls U := by
  simp [streamCalls]

theorem streamPart_one (i : StreamItem ε ev ι) : streamPart [.stream i] = [i] := rfl

theorem Plain.events {T : List (StreamItem ε ev ι)} (h : ∀ i ∈ T, i.Plain) : streamEvents T = [] := by
  unfold streamEvents
  rw [List.filterMap_eq_nil_iff]
  exact fun i hi => (h i hi).1

theorem Plain.calls {T : List (StreamItem ε ev ι)} (h : ∀ i ∈ T, i.Plain) : streamCalls T = [] := by
  unfold streamCalls
  rw [List.filterMap_eq_nil_iff]
  exact fun i hi => (h i hi).2

theorem Eventful.events {T : List (FullItem ε ev ι)} {e : ev} (h : Eventful T e) : streamEvents (streamPart T) = [e] := by
  obtain ⟨T0, rfl, h1, -⟩ := h
  rw [streamPart_append, streamEvents_append, Plain.events h1]
  rfl

theorem Eventful.calls {T : List (FullItem ε ev ι)} {e : ev} (h : Eventful T e) : streamCalls (streamPart T) = [] := by
  obtain ⟨T0, rfl, h1, -⟩ := h
  rw [streamPart_append, streamCalls_append, Plain.calls h1]
  rfl

end

theorem clientSide_append (T U : List ProxyItem) : clientSide (T ++ U) = clientSide T ++ clientSide U := by
  simp [clientSide]

theorem serverSide_append (T U : List ProxyItem) : serverSide (T ++ U) = serverSide T ++ serverSide U := by
  simp [serverSide]

theorem clientSide_client (T : List (FullItem ServerError ServerEvent ServerOp)) :
    clientSide (T.map .ofClient) = streamPart T := by
  induction T with
  | nil => rfl
  | cons i T ih => cases i <;> first | exact ih | exact congrArg (_ :: ·) ih

theorem serverSide_client (T : List (FullItem ServerError ServerEvent ServerOp)) : serverSide (T.map .ofClient) = [] := by
  simp only [serverSide, List.filterMap_map, List.filterMap_eq_nil_iff]
  intro i _
  cases i <;> rfl

theorem clientSide_server (T : List (FullItem ClientError ClientEvent ClientOp)) : clientSide (T.map .ofServer) = [] := by
  simp only [clientSide, List.filterMap_map, List.filterMap_eq_nil_iff]
  intro i _
  cases i <;> rfl

theorem serverSide_server (T : List (FullItem ClientError ClientEvent ClientOp)) :
    serverSide (T.map .ofServer) = streamPart T := by
  induction T with
  | nil => rfl
  | cons i T ih => cases i <;> first | exact ih | exact congrArg (_ :: ·) ih

theorem clientFull_append (T U : List ProxyItem) : clientFull (T ++ U) = clientFull T ++ clientFull U := by
  simp [clientFull]

theorem serverFull_append (T U : List ProxyItem) : serverFull (T ++ U) = serverFull T ++ serverFull U := by
  simp [serverFull]

theorem clientFull_client (T : List (FullItem ServerError ServerEvent ServerOp)) : clientFull (T.map .ofClient) = T := by
  induction T with
  | nil => rfl
  | cons i T ih => cases i <;> first | exact ih | exact congrArg (_ :: ·) ih

theorem serverFull_client (T : List (FullItem ServerError ServerEvent ServerOp)) : serverFull (T.map .ofClient) = [] := by
  simp only [serverFull, List.filterMap_map, List.filterMap_eq_nil_iff]
  intro i _
  cases i <;> rfl

theorem clientFull_server (T : List (FullItem ClientError ClientEvent ClientOp)) : clientFull (T.map .ofServer) = [] := by
  simp only [clientFull, List.filterMap_map, List.filterMap_eq_nil_iff]
  intro i _
  cases i <;> rfl

theorem serverFull_server (T : List (FullItem ClientError ClientEvent ClientOp)) : serverFull (T.map .ofServer) = T := by
  induction T with
  | nil => rfl
  | cons i T ih => cases i <;> first | exact ih | exact congrArg (_ :: ·) ih

theorem streamPart_clientFull (T : List ProxyItem) : streamPart (clientFull T) = clientSide T := by
  induction T with
  | nil => rfl
  | cons i T ih =>
    rcases i with i | i | (_ | _ | _) | i | p <;> first | exact ih | exact congrArg (i :: ·) ih

theorem streamPart_serverFull (T : List ProxyItem) : streamPart (serverFull T) = serverSide T := by
  induction T with
  | nil => rfl
  | cons i T ih =>
    rcases i with i | i | i | (_ | _ | _) | p <;> first | exact ih | exact congrArg (i :: ·) ih

theorem FullStream.new_ctl {K σ : Type} (tls : Option (Tls K)) (s : σ) : (FullStream.new tls s).ctl = .at .idle := by
  cases tls <;> rfl

theorem FullStream.new_tls {K σ : Type} (tls : Option (Tls K)) (s : σ) : (FullStream.new tls s).tls = tls := by
  cases tls <;> rfl

theorem FullStream.new_state {K σ : Type} (tls : Option (Tls K)) (s : σ) : (FullStream.new tls s).state = s := by
  cases tls <;> rfl

/-! ## A client on a stream -/

/-- A client on a stream with its trace. -/
structure ClientLink {K : Type} (L : Lib) (tls : Option (Tls K)) (g : HandleGenerator) (o : ClientOptions)
    (S : List (FullItem ClientError ClientEvent ClientOp)) (s : FullStream K Client) (U : List CItem) : Prop where
  run : ∃ as, FullStream.run (clientMachine L) (.new tls (Client.new g o)) as = some (s, S)
  trace : ∃ ops, (Client.new g o).trace L ops = .ok (s.state, U)
  alive : s.ctl ≠ .at .dead
  fixed : FullStream.SameFixed tls s.tls
  given : clientGiven U = streamDelivered (streamPart S)
  output : clientOutput U = streamOutput (streamPart S)
  events : U.filterMap CItem.event? = streamEvents (streamPart S)
  enqueued : (clientEnqueued U).map Prod.snd = (streamCalls (streamPart S)).filterMap ClientOp.command?
  reading : Growing tls → s.ctl = .at .reading → ∃ U0 i, U = U0 ++ [i] ∧ (i = .starved ∨ i = .output [])

theorem ClientLink.start {K : Type} (L : Lib) (tls : Option (Tls K)) (g : HandleGenerator) (o : ClientOptions) :
    ClientLink L tls g o [] (.new tls (Client.new g o)) [] :=
  ⟨⟨[], rfl⟩, ⟨[], by rw [FullStream.new_state]; rfl⟩, by simp [FullStream.new_ctl], by rw [FullStream.new_tls]; exact .refl _, rfl, rfl, rfl, rfl,
    fun _ h => by rw [FullStream.new_ctl] at h; cases h⟩

theorem silent_events {U : List CItem} (h : ∀ i ∈ U, i.Silent) : U.filterMap CItem.event? = [] := by
  rw [List.filterMap_eq_nil_iff]
  intro i hi
  have := h i hi
  cases i <;> first | exact this.elim | rfl

theorem silent_enqueued {U : List CItem} (h : ∀ i ∈ U, i.Silent) : clientEnqueued U = [] := by
  unfold clientEnqueued
  rw [List.flatMap_eq_nil_iff]
  intro i hi
  have := h i hi
  cases i <;> first | exact this.elim | rfl

theorem ClientLink.step {K : Type} {L : Lib} {tls : Option (Tls K)} (hL : L.Lawful) {g : HandleGenerator} {o : ClientOptions}
    {S T : List (FullItem ClientError ClientEvent ClientOp)} {s s' : FullStream K Client} {U : List CItem}
    {a : StreamAct ClientOp} (h : ClientLink L tls g o S s U) (ha : ∀ op, a ≠ .user op)
    (hs : s.step (clientMachine L) a = some (s', T)) :
    ∃ U', ClientLink L tls g o (S ++ T) s' (U ++ U') ∧ ClientProgress U' T := by
  obtain ⟨as, h1⟩ := h.run
  obtain ⟨ops, h2⟩ := h.trace
  obtain ⟨h3, ops', U', h4, h5, hrd⟩ := client_step hL h2 ha hs
  refine ⟨U', ⟨⟨_, FullStream.run_snoc h1 hs⟩, ⟨_, h4⟩, h3, h.fixed.trans (FullStream.step_cases hs).fixed, ?_, ?_, ?_, ?_,
    fun hg hc => ?_⟩, h5⟩
  · rw [clientGiven_append, streamPart_append, streamDelivered_append, h.given, h5.given]
  · rw [clientOutput_append, streamPart_append, streamOutput_append, h.output, h5.output]
  · rw [List.filterMap_append, streamPart_append, streamEvents_append, h.events]
    rcases h5.event with ⟨h6, h7⟩ | ⟨pre, i, e, rfl, h6, h7, h8⟩
    · rw [silent_events h6, Plain.events h7.1]
    · rw [List.filterMap_append, silent_events h6, h8.events]; simp [h7]
  · rw [clientEnqueued_append, streamPart_append, streamCalls_append, List.map_append, List.filterMap_append, h.enqueued]
    rcases h5.event with ⟨h6, h7⟩ | ⟨pre, i, e, rfl, h6, h7, h8⟩
    · rw [silent_enqueued h6, Plain.calls h7.1]; rfl
    · rw [clientEnqueued_append, silent_enqueued h6, h8.calls]
      cases i <;> first | rfl | cases h7
  · obtain ⟨W, i, rfl, hi⟩ := hrd (hg.fixed h.fixed) hc
    exact ⟨_, i, (List.append_assoc ..).symm, hi⟩

theorem ClientLink.drop {K : Type} {L : Lib} {tls : Option (Tls K)} {g : HandleGenerator} {o : ClientOptions}
    {S : List (FullItem ClientError ClientEvent ClientOp)} {s : FullStream K Client} {U : List CItem}
    (h : ClientLink L tls g o S s U) (hc : s.ctl ≠ .hung ∧ s.ctl ≠ .broken) :
    ∃ D s', s.dropFuture = (s', D) ∧ s'.state = s.state ∧ s'.ctl = .at .idle ∧
      (D = [] ∨ D = [.stream .dropped]) ∧ ClientLink L tls g o (S ++ D) s' U := by
  obtain ⟨as, h1⟩ := h.run
  obtain ⟨t, rb, wb, st, ctl⟩ := s
  have h2 := h.alive
  have key : ∀ ctl', (FullStream.step (clientMachine L) ⟨t, rb, wb, st, ctl'⟩ .drop =
      some (⟨t, rb, wb, st, .at .idle⟩, [.stream .dropped])) → ctl' = ctl →
      ClientLink L tls g o (S ++ [.stream .dropped]) ⟨t, rb, wb, st, .at .idle⟩ U := by
    rintro ctl' hs rfl
    refine ⟨⟨_, FullStream.run_snoc h1 hs⟩, h.trace, by simp, h.fixed, ?_, ?_, ?_, ?_, nofun⟩
    · rw [h.given, streamPart_append, streamDelivered_append]; simp [streamDelivered, streamPart_one]
    · rw [h.output, streamPart_append, streamOutput_append]; simp [streamOutput, streamPart_one]
    · rw [h.events, streamPart_append, streamEvents_append]; simp [streamEvents, StreamItem.event?, streamPart_one]
    · rw [h.enqueued, streamPart_append, streamCalls_append]; simp [streamCalls, StreamItem.call?, streamPart_one]
  rcases ctl with ctl | _ | _
  · cases ctl with
    | idle => exact ⟨[], _, rfl, rfl, rfl, .inl rfl, by simpa using h⟩
    | dead => exact (h2 rfl).elim
    | reading => exact ⟨_, _, rfl, rfl, rfl, .inr rfl, key _ rfl rfl⟩
    | racing => exact ⟨_, _, rfl, rfl, rfl, .inr rfl, key _ rfl rfl⟩
    | flushing => exact ⟨_, _, rfl, rfl, rfl, .inr rfl, key _ rfl rfl⟩
  · exact (hc.1 rfl).elim
  · exact (hc.2 rfl).elim

/-- A call of the owner that is not left to the stream. -/
theorem ClientLink.call {K : Type} {L : Lib} {tls : Option (Tls K)} {g : HandleGenerator} {o : ClientOptions}
    {S : List (FullItem ClientError ClientEvent ClientOp)} {s : FullStream K Client} {U : List CItem}
    (h : ClientLink L tls g o S s U) (hc : s.ctl = .at .idle) {op : ClientOp} {i : CItem} {st : Client}
    (ht : s.state.callTrace L op = .ok (st, [i]))
    (hi : i.given = [] ∧ i.outputs = [] ∧ i.event? = none ∧ i.enqueues.map Prod.snd = op.command?.toList) :
    ClientLink L tls g o (S ++ [.stream (.user op)]) { s with state := st } (U ++ [i]) := by
  obtain ⟨as, h1⟩ := h.run
  obtain ⟨ops, h2⟩ := h.trace
  have hcall : (s.state.call L op).map Prod.fst = .ok st := by
    have h3 := Client.callTrace_erase L s.state op
    rw [ht] at h3
    cases hx : s.state.call L op with
    | error p => rw [hx] at h3; cases h3
    | ok x =>
      rw [hx] at h3
      simp only [Client.eraseRes, Except.map, Except.ok.injEq, Prod.mk.injEq] at h3
      simp only [Except.map]
      rw [h3.1]
  have hs : s.step (clientMachine L) (.user op) = some ({ s with state := st }, [.stream (.user op)]) := by
    simp only [FullStream.step, hc]
    rw [show (clientMachine L).user s.state op = .ok st from hcall]
  refine ⟨⟨_, FullStream.run_snoc h1 hs⟩, ⟨ops ++ [op], ?_⟩, by simp [hc], h.fixed, ?_, ?_, ?_, ?_, by simp [hc]⟩
  · rw [Client.trace_append, h2]
    simp [Client.trace, ht]
  · rw [clientGiven_append, h.given, streamPart_append, streamDelivered_append]
    simp [clientGiven, hi.1, streamDelivered, streamPart_one]
  · rw [clientOutput_append, h.output, streamPart_append, streamOutput_append]
    simp [clientOutput, hi.2.1, streamOutput, streamPart_one]
  · rw [List.filterMap_append, h.events, streamPart_append, streamEvents_append]
    simp [hi.2.2.1, streamEvents, StreamItem.event?, streamPart_one]
  · rw [clientEnqueued_append, List.map_append, h.enqueued, streamPart_append, streamCalls_append, List.filterMap_append]
    simp only [clientEnqueued, List.flatMap_cons, List.flatMap_nil, List.append_nil, hi.2.2.2]
    cases hcmd : op.command? <;> simp [streamCalls, StreamItem.call?, hcmd, streamPart_one]

/-! ## A server on a stream -/

/-- The responses the owner of a server enqueued. -/
def userResponses (V : List SItem) : List Response := (V.flatMap SItem.enqueues).filterMap ServerMessage.user?

theorem userResponses_append (V W : List SItem) : userResponses (V ++ W) = userResponses V ++ userResponses W := by
  simp [userResponses]

/-- A server on a stream with its trace. -/
structure ServerLink {K : Type} (L : Lib) (tls : Option (Tls K)) (g : HandleGenerator) (o : ServerOptions) (gr : Greeting)
    (S : List (FullItem ServerError ServerEvent ServerOp)) (s : FullStream K Server) (V : List SItem) : Prop where
  run : ∃ as, FullStream.run (serverMachine L) (.new tls (Server.new g o gr)) as = some (s, S)
  trace : ∃ ops, (Server.new g o gr).trace L ops = .ok (s.state, V)
  alive : s.ctl ≠ .at .dead
  fixed : FullStream.SameFixed tls s.tls
  given : serverGiven V = streamDelivered (streamPart S)
  output : serverOutput V = streamOutput (streamPart S)
  events : V.filterMap SItem.event? = streamEvents (streamPart S)
  responses : userResponses V = (streamCalls (streamPart S)).filterMap ServerOp.response?
  reading : Growing tls → s.ctl = .at .reading → ∃ V0 i, V = V0 ++ [i] ∧ (i = .starved ∨ i = .output [])

theorem ServerLink.start {K : Type} (L : Lib) (tls : Option (Tls K)) (g : HandleGenerator) (o : ServerOptions) (gr : Greeting) :
    ServerLink L tls g o gr [] (.new tls (Server.new g o gr)) [] :=
  ⟨⟨[], rfl⟩, ⟨[], by rw [FullStream.new_state]; rfl⟩, by simp [FullStream.new_ctl], by rw [FullStream.new_tls]; exact .refl _, rfl, rfl, rfl, rfl,
    fun _ h => by rw [FullStream.new_ctl] at h; cases h⟩

theorem server_silent_events {V : List SItem} (h : ∀ i ∈ V, i.Silent) : V.filterMap SItem.event? = [] := by
  rw [List.filterMap_eq_nil_iff]
  intro i hi
  have := h i hi
  cases i <;> first | exact this.elim | rfl

/-- Every response that has no handle was generated by the server. -/
theorem server_silent_responses {L : Lib} {g : HandleGenerator} {o : ServerOptions} {gr : Greeting} {ops : List ServerOp}
    {s : Server} {V W X : List SItem} (ht : (Server.new g o gr).trace L ops = .ok (s, V ++ (W ++ X)))
    (h : ∀ i ∈ W, i.Silent) : userResponses W = [] := by
  induction W generalizing V with
  | nil => rfl
  | cons i W ih =>
    rw [show i :: W = [i] ++ W from rfl, userResponses_append,
      ih (V := V ++ [i]) (by simpa using ht) fun j hj => h j (List.mem_cons_of_mem _ hj), List.append_nil]
    have hg := Server.trace_guard ht
    have hi := h i List.mem_cons_self
    cases i with
    | literal p rs =>
      obtain ⟨-, -, -, -, -, tag, k, mode, -, -, rfl⟩ := hg
      simp only [userResponses, List.flatMap_cons, List.flatMap_nil, List.append_nil, SItem.enqueues]
      unfold acceptReply
      split <;> first | rfl | skip
      split <;> first | rfl | skip
      split <;> rfl
    | failed e rs =>
      obtain ⟨-, -, hg, -⟩ := hg
      have hrs : rs = [] ∨ ∃ tag mode, rs = rejectReply o tag mode := by
        unfold Discarded at hg
        split at hg
        · split at hg
          · obtain ⟨-, tag, k, mode, -, -, rfl⟩ := hg; exact .inr ⟨_, _, rfl⟩
          · exact .inl hg.1
          · exact .inl hg.1
        · exact .inl hg.1
        · exact hg.elim
        · exact .inl hg.1
      rcases hrs with rfl | ⟨tag, mode, rfl⟩
      · rfl
      · simp only [userResponses, List.flatMap_cons, List.flatMap_nil, List.append_nil, SItem.enqueues]
        unfold rejectReply
        split <;> first | rfl | skip
        split <;> rfl
    | _ => first | rfl | exact hi.elim

theorem ServerLink.step {K : Type} {L : Lib} {tls : Option (Tls K)} (hL : L.Lawful) {g : HandleGenerator} {o : ServerOptions}
    (hO : ServerOptions.Built L o) {gr : Greeting}
    {S T : List (FullItem ServerError ServerEvent ServerOp)} {s s' : FullStream K Server} {V : List SItem}
    {a : StreamAct ServerOp} (h : ServerLink L tls g o gr S s V) (ha : ∀ op, a ≠ .user op)
    (hs : s.step (serverMachine L) a = some (s', T)) :
    ∃ V', ServerLink L tls g o gr (S ++ T) s' (V ++ V') ∧ ServerProgress V' T := by
  obtain ⟨as, h1⟩ := h.run
  obtain ⟨ops, h2⟩ := h.trace
  obtain ⟨h3, ops', V', h4, h5, hrd⟩ := server_step hL hO h2 ha hs
  refine ⟨V', ⟨⟨_, FullStream.run_snoc h1 hs⟩, ⟨_, h4⟩, h3, h.fixed.trans (FullStream.step_cases hs).fixed, ?_, ?_, ?_, ?_,
    fun hg hc => ?_⟩, h5⟩
  · rw [serverGiven_append, streamPart_append, streamDelivered_append, h.given, h5.given]
  · rw [serverOutput_append, streamPart_append, streamOutput_append, h.output, h5.output]
  · rw [List.filterMap_append, streamPart_append, streamEvents_append, h.events]
    rcases h5.event with ⟨h6, h7⟩ | ⟨pre, i, e, rfl, h6, h7, h8⟩
    · rw [server_silent_events h6, Plain.events h7.1]
    · rw [List.filterMap_append, server_silent_events h6, h8.events]; simp [h7]
  · rw [userResponses_append, streamPart_append, streamCalls_append, List.filterMap_append, h.responses]
    rcases h5.event with ⟨h6, h7⟩ | ⟨pre, i, e, rfl, h6, h7, h8⟩
    · rw [server_silent_responses (X := []) (by simpa using h4) h6, Plain.calls h7.1]; rfl
    · rw [userResponses_append, server_silent_responses h4 h6, h8.calls]
      cases i <;> first | rfl | cases h7
  · obtain ⟨W, i, rfl, hi⟩ := hrd (hg.fixed h.fixed) hc
    exact ⟨_, i, (List.append_assoc ..).symm, hi⟩

theorem ServerLink.drop {K : Type} {L : Lib} {tls : Option (Tls K)} {g : HandleGenerator} {o : ServerOptions} {gr : Greeting}
    {S : List (FullItem ServerError ServerEvent ServerOp)} {s : FullStream K Server} {V : List SItem}
    (h : ServerLink L tls g o gr S s V) (hc : s.ctl ≠ .hung ∧ s.ctl ≠ .broken) :
    ∃ D s', s.dropFuture = (s', D) ∧ s'.state = s.state ∧ s'.ctl = .at .idle ∧
      (D = [] ∨ D = [.stream .dropped]) ∧ ServerLink L tls g o gr (S ++ D) s' V := by
  obtain ⟨as, h1⟩ := h.run
  obtain ⟨t, rb, wb, st, ctl⟩ := s
  have h2 := h.alive
  have key : ∀ ctl', (FullStream.step (serverMachine L) ⟨t, rb, wb, st, ctl'⟩ .drop =
      some (⟨t, rb, wb, st, .at .idle⟩, [.stream .dropped])) → ctl' = ctl →
      ServerLink L tls g o gr (S ++ [.stream .dropped]) ⟨t, rb, wb, st, .at .idle⟩ V := by
    rintro ctl' hs rfl
    refine ⟨⟨_, FullStream.run_snoc h1 hs⟩, h.trace, by simp, h.fixed, ?_, ?_, ?_, ?_, nofun⟩
    · rw [h.given, streamPart_append, streamDelivered_append]; simp [streamDelivered, streamPart_one]
    · rw [h.output, streamPart_append, streamOutput_append]; simp [streamOutput, streamPart_one]
    · rw [h.events, streamPart_append, streamEvents_append]; simp [streamEvents, StreamItem.event?, streamPart_one]
    · rw [h.responses, streamPart_append, streamCalls_append]; simp [streamCalls, StreamItem.call?, streamPart_one]
  rcases ctl with ctl | _ | _
  · cases ctl with
    | idle => exact ⟨[], _, rfl, rfl, rfl, .inl rfl, by simpa using h⟩
    | dead => exact (h2 rfl).elim
    | reading => exact ⟨_, _, rfl, rfl, rfl, .inr rfl, key _ rfl rfl⟩
    | racing => exact ⟨_, _, rfl, rfl, rfl, .inr rfl, key _ rfl rfl⟩
    | flushing => exact ⟨_, _, rfl, rfl, rfl, .inr rfl, key _ rfl rfl⟩
  · exact (hc.1 rfl).elim
  · exact (hc.2 rfl).elim

/-- A call of the owner that is not left to the stream and succeeds. -/
theorem ServerLink.call {K : Type} {L : Lib} {tls : Option (Tls K)} {g : HandleGenerator} {o : ServerOptions} {gr : Greeting}
    {S : List (FullItem ServerError ServerEvent ServerOp)} {s : FullStream K Server} {V : List SItem}
    (h : ServerLink L tls g o gr S s V) (hc : s.ctl = .at .idle) {op : ServerOp} {i : SItem} {st : Server}
    (ht : s.state.callTrace L op = .ok (st, [i]))
    (hi : i.given = [] ∧ i.outputs = [] ∧ i.event? = none ∧ userResponses [i] = op.response?.toList) :
    ServerLink L tls g o gr (S ++ [.stream (.user op)]) { s with state := st } (V ++ [i]) := by
  obtain ⟨as, h1⟩ := h.run
  obtain ⟨ops, h2⟩ := h.trace
  have hcall : (s.state.call L op).map Prod.fst = .ok st := by
    have h3 := Server.callTrace_erase L s.state op
    rw [ht] at h3
    cases hx : s.state.call L op with
    | error p => rw [hx] at h3; cases h3
    | ok x =>
      rw [hx] at h3
      simp only [Server.eraseRes, Except.map, Except.ok.injEq, Prod.mk.injEq] at h3
      simp only [Except.map]
      rw [h3.1]
  have hs : s.step (serverMachine L) (.user op) = some ({ s with state := st }, [.stream (.user op)]) := by
    simp only [FullStream.step, hc]
    rw [show (serverMachine L).user s.state op = .ok st from hcall]
  refine ⟨⟨_, FullStream.run_snoc h1 hs⟩, ⟨ops ++ [op], ?_⟩, by simp [hc], h.fixed, ?_, ?_, ?_, ?_, by simp [hc]⟩
  · rw [Server.trace_append, h2]
    simp [Server.trace, ht]
  · rw [serverGiven_append, h.given, streamPart_append, streamDelivered_append]
    simp [serverGiven, hi.1, streamDelivered, streamPart_one]
  · rw [serverOutput_append, h.output, streamPart_append, streamOutput_append]
    simp [serverOutput, hi.2.1, streamOutput, streamPart_one]
  · rw [List.filterMap_append, h.events, streamPart_append, streamEvents_append]
    simp [hi.2.2.1, streamEvents, StreamItem.event?, streamPart_one]
  · rw [userResponses_append, h.responses, streamPart_append, streamCalls_append, List.filterMap_append, hi.2.2.2]
    cases hcmd : op.response? <;> simp [streamCalls, StreamItem.call?, hcmd, streamPart_one]

end ImapFlow
