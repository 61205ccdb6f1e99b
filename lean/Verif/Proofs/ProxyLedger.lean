import Verif.Proofs.ProxyHandlers

/-!
# What the proxy received and what it passed on
-/

namespace ImapFlow

/-- Neither an event nor a call nor a panic. -/
def ProxyItem.Quiet : ProxyItem → Prop
  | .client i => i.Plain
  | .server i => i.Plain
  | .clientTls _ | .serverTls _ => True
  | .panicked _ => False

theorem dueCalls_append (T D : List ProxyItem) :
    dueCalls (T ++ D) = dueCalls T ++ dueCalls D := by
  simp [dueCalls, clientSide_append, streamEvents_append]

theorem madeCalls_append (T D : List ProxyItem) :
    madeCalls (T ++ D) = madeCalls T ++ madeCalls D := by
  simp [madeCalls, serverSide_append, streamCalls_append]

theorem forwardedResponses_append (T D : List ProxyItem) :
    forwardedResponses (T ++ D) = forwardedResponses T ++ forwardedResponses D := by
  simp [forwardedResponses, clientSide_append, streamCalls_append]

/-- The events of the connection to the server. -/
def serverEvents (T : List ProxyItem) : List ClientEvent := streamEvents (serverSide T)

theorem serverEvents_append (T D : List ProxyItem) : serverEvents (T ++ D) = serverEvents T ++ serverEvents D := by
  simp [serverEvents, serverSide_append, streamEvents_append]

theorem Quiet.client {D : List ProxyItem} (h : ∀ x ∈ D, x.Quiet) : ∀ i ∈ clientSide D, i.Plain := by
  intro i hi
  obtain ⟨x, hx, he⟩ := List.mem_filterMap.mp hi
  have := h x hx
  cases x with
  | client j => cases he; exact this
  | _ => cases he

theorem Quiet.server {D : List ProxyItem} (h : ∀ x ∈ D, x.Quiet) : ∀ i ∈ serverSide D, i.Plain := by
  intro i hi
  obtain ⟨x, hx, he⟩ := List.mem_filterMap.mp hi
  have := h x hx
  cases x with
  | server j => cases he; exact this
  | _ => cases he

theorem madeAnswers_append (T D : List ProxyItem) : madeAnswers (T ++ D) = madeAnswers T ++ madeAnswers D := by
  simp [madeAnswers, clientSide_append, streamCalls_append]

theorem Quiet.answers {D : List ProxyItem} (h : ∀ x ∈ D, x.Quiet) : madeAnswers D = [] := by
  rw [madeAnswers, Plain.calls (Quiet.client h)]

theorem Quiet.nothing {D : List ProxyItem} (h : ∀ x ∈ D, x.Quiet) :
    dueCalls D = [] ∧ madeCalls D = [] ∧ forwardedResponses D = [] ∧ serverEvents D = [] := by
  refine ⟨?_, ?_, ?_, ?_⟩
  · rw [dueCalls, Plain.events (Quiet.client h)]; rfl
  · rw [madeCalls, Plain.calls (Quiet.server h)]
  · rw [forwardedResponses, Plain.calls (Quiet.client h)]; rfl
  · rw [serverEvents, Plain.events (Quiet.server h)]

/-! ## The observer of AUTHENTICATE and IDLE -/

/-- Not an event. -/
def ProxyItem.Dull (x : ProxyItem) : Prop :=
  (∀ e, x ≠ .client (.returned (.ok e))) ∧ ∀ e, x ≠ .server (.returned (.ok e))

theorem ProxyItem.Quiet.dull {x : ProxyItem} (h : x.Quiet) : x.Dull := by
  constructor
  · rintro e rfl; cases h.1
  · rintro e rfl; cases h.1

theorem ProxyWatch.of_snoc (T : List ProxyItem) (x : ProxyItem) :
    ProxyWatch.of (T ++ [x]) = (ProxyWatch.of T).observe x := by
  simp [ProxyWatch.of]

theorem ProxyWatch.observe_dull {x : ProxyItem} (h : x.Dull) (w : ProxyWatch) : w.observe x = w := by
  unfold ProxyWatch.observe
  split <;> first | rfl | exact (h.1 _ rfl).elim | exact (h.2 _ rfl).elim

theorem ProxyWatch.of_dull {D : List ProxyItem} (h : ∀ x ∈ D, x.Dull) (T : List ProxyItem) :
    ProxyWatch.of (T ++ D) = ProxyWatch.of T := by
  induction D using snocInduction with
  | nil => rw [List.append_nil]
  | snoc D x ih =>
    rw [← List.append_assoc, ProxyWatch.of_snoc, ProxyWatch.observe_dull (h x (by simp)),
      ih fun y hy => h y (by simp [hy])]

/-- The two ways to split a list that was extended. -/
theorem snoc_split {α : Type} {T T1 T2 : List α} {x y : α} (h : T ++ [x] = T1 ++ y :: T2) :
    (T = T1 ∧ x = y ∧ T2 = []) ∨ ∃ T3, T2 = T3 ++ [x] ∧ T = T1 ++ y :: T3 := by
  rcases List.eq_nil_or_concat T2 with rfl | ⟨T3, z, rfl⟩
  · have := List.append_inj' h rfl
    simp only [List.cons.injEq, and_true] at this
    exact .inl ⟨this.1, this.2, rfl⟩
  · right
    rw [List.concat_eq_append] at h ⊢
    rw [← List.cons_append, ← List.append_assoc] at h
    have := List.append_inj' h rfl
    simp only [List.cons.injEq, and_true] at this
    exact ⟨T3, by rw [this.2], this.1⟩

theorem UnaskedData.snoc {T : List ProxyItem} {x : ProxyItem} : UnaskedData (T ++ [x]) ↔
    UnaskedData T ∨ ((∃ d, x = .client (.returned (.ok (.authenticateDataReceived d)))) ∧ (ProxyWatch.of T).asked = false) := by
  constructor
  · rintro ⟨T1, T2, d, h, ha⟩
    rcases snoc_split h with ⟨rfl, rfl, rfl⟩ | ⟨T3, rfl, rfl⟩
    · exact .inr ⟨⟨d, rfl⟩, ha⟩
    · exact .inl ⟨T1, T3, d, rfl, ha⟩
  · rintro (⟨T1, T2, d, rfl, ha⟩ | ⟨⟨d, rfl⟩, ha⟩)
    · exact ⟨T1, T2 ++ [x], d, by simp, ha⟩
    · exact ⟨T, [], d, rfl, ha⟩

theorem BrokenIdle.snoc {T : List ProxyItem} {x : ProxyItem} : BrokenIdle (T ++ [x]) ↔
    BrokenIdle T ∨ ((∃ h st, x = .server (.returned (.ok (.idleRejected h st)))) ∧ (ProxyWatch.of T).idling = true) := by
  constructor
  · rintro ⟨T1, T2, d, st, h, ha⟩
    rcases snoc_split h with ⟨rfl, rfl, rfl⟩ | ⟨T3, rfl, rfl⟩
    · exact .inr ⟨⟨d, st, rfl⟩, ha⟩
    · exact .inl ⟨T1, T3, d, st, rfl, ha⟩
  · rintro (⟨T1, T2, d, st, rfl, ha⟩ | ⟨⟨d, st, rfl⟩, ha⟩)
    · exact ⟨T1, T2 ++ [x], d, st, by simp, ha⟩
    · exact ⟨T, [], d, st, rfl, ha⟩

theorem UnaskedData.append {T D : List ProxyItem} (h : UnaskedData T) : UnaskedData (T ++ D) := by
  obtain ⟨T1, T2, d, rfl, ha⟩ := h
  exact ⟨T1, T2 ++ D, d, by simp, ha⟩

theorem BrokenIdle.append {T D : List ProxyItem} (h : BrokenIdle T) : BrokenIdle (T ++ D) := by
  obtain ⟨T1, T2, d, st, rfl, ha⟩ := h
  exact ⟨T1, T2 ++ D, d, st, by simp, ha⟩

theorem UnaskedData.dull {T D : List ProxyItem} (hD : ∀ x ∈ D, x.Dull) : UnaskedData (T ++ D) ↔ UnaskedData T := by
  induction D using snocInduction with
  | nil => rw [List.append_nil]
  | snoc D x ih =>
    rw [← List.append_assoc, UnaskedData.snoc, ih fun y hy => hD y (by simp [hy])]
    constructor
    · rintro (h | ⟨⟨d, rfl⟩, -⟩)
      · exact h
      · exact ((hD _ (List.mem_append_right _ List.mem_cons_self)).1 _ rfl).elim
    · exact .inl

theorem BrokenIdle.dull {T D : List ProxyItem} (hD : ∀ x ∈ D, x.Dull) : BrokenIdle (T ++ D) ↔ BrokenIdle T := by
  induction D using snocInduction with
  | nil => rw [List.append_nil]
  | snoc D x ih =>
    rw [← List.append_assoc, BrokenIdle.snoc, ih fun y hy => hD y (by simp [hy])]
    constructor
    · rintro (h | ⟨⟨d, st, rfl⟩, -⟩)
      · exact h
      · exact ((hD _ (List.mem_append_right _ List.mem_cons_self)).2 _ rfl).elim
    · exact .inl

/-! ## The ledger -/

/-- Everything received was passed on, and nothing went wrong. -/
structure Ledger (T : List ProxyItem) : Prop where
  calls : madeCalls T = dueCalls T
  answers : madeAnswers T = (serverEvents T).filterMap ClientEvent.answer
  calm : ∀ p, .panicked p ∉ T
  asked : ¬ UnaskedData T
  idle : ¬ BrokenIdle T

theorem ClientEvent.answer_response (e : ClientEvent) : e.answer.bind ServerOp.response? = e.forwarded := by
  have key : ∀ o : Option Response, (o.map Response.enqueue).bind ServerOp.response? = o := by
    intro o
    cases o with
    | none => rfl
    | some r => cases r <;> rfl
  cases e <;> first | rfl | exact key (some _)

theorem Ledger.responses {T : List ProxyItem} (h : Ledger T) :
    forwardedResponses T = (serverEvents T).filterMap ClientEvent.forwarded := by
  have : forwardedResponses T = (madeAnswers T).filterMap ServerOp.response? := rfl
  rw [this, h.answers, List.filterMap_filterMap]
  exact congrArg (fun f => List.filterMap f _) (funext ClientEvent.answer_response)

theorem Ledger.start : Ledger [] := by
  refine ⟨rfl, rfl, by simp, ?_, ?_⟩
  · rintro ⟨T1, T2, d, h, -⟩; simp at h
  · rintro ⟨T1, T2, d, st, h, -⟩; simp at h

theorem Ledger.quiet {T D : List ProxyItem} (h : Ledger T) (hD : ∀ x ∈ D, x.Quiet) : Ledger (T ++ D) := by
  obtain ⟨h1, h2, h3, h4⟩ := Quiet.nothing hD
  refine ⟨?_, ?_, ?_, ?_, ?_⟩
  · rw [madeCalls_append, dueCalls_append, h1, h2, List.append_nil, List.append_nil, h.calls]
  · rw [madeAnswers_append, serverEvents_append, Quiet.answers hD, h4, List.append_nil, List.append_nil, h.answers]
  · intro p hp
    rcases List.mem_append.mp hp with hp | hp
    · exact h.calm p hp
    · exact hD _ hp
  · rw [UnaskedData.dull fun x hx => (hD x hx).dull]; exact h.asked
  · rw [BrokenIdle.dull fun x hx => (hD x hx).dull]; exact h.idle

/-- The items for calls on the client of the proxy. -/
def serverCalls (calls : List ClientOp) : List ProxyItem := calls.map fun op => .server (.user op)

/-- The items for calls on the server of the proxy. -/
def clientCalls (calls : List ServerOp) : List ProxyItem := calls.map fun op => .client (.user op)

theorem serverCalls_dull (calls : List ClientOp) : ∀ x ∈ serverCalls calls, x.Dull := by
  intro x hx
  obtain ⟨op, -, rfl⟩ := List.mem_map.mp hx
  exact ⟨nofun, nofun⟩

theorem clientCalls_dull (calls : List ServerOp) : ∀ x ∈ clientCalls calls, x.Dull := by
  intro x hx
  obtain ⟨op, -, rfl⟩ := List.mem_map.mp hx
  exact ⟨nofun, nofun⟩

theorem serverCalls_sides (calls : List ClientOp) :
    clientSide (serverCalls calls) = [] ∧ serverSide (serverCalls calls) = calls.map .user := by
  have : serverCalls calls = ((calls.map StreamItem.user).map FullItem.stream).map ProxyItem.ofServer := by
    simp [serverCalls, ProxyItem.ofServer]
  rw [this]
  exact ⟨clientSide_server _, by rw [serverSide_server, streamPart_map]⟩

theorem clientCalls_sides (calls : List ServerOp) :
    clientSide (clientCalls calls) = calls.map .user ∧ serverSide (clientCalls calls) = [] := by
  have : clientCalls calls = ((calls.map StreamItem.user).map FullItem.stream).map ProxyItem.ofClient := by
    simp [clientCalls, ProxyItem.ofClient]
  rw [this]
  exact ⟨by rw [clientSide_client, streamPart_map], serverSide_client _⟩

theorem serverCalls_full (calls : List ClientOp) :
    clientFull (serverCalls calls) = [] ∧ serverFull (serverCalls calls) = calls.map fun op => .stream (.user op) := by
  have : serverCalls calls = (calls.map fun op => FullItem.stream (.user op)).map ProxyItem.ofServer := by
    simp [serverCalls, ProxyItem.ofServer]
  rw [this]
  exact ⟨clientFull_server _, serverFull_server _⟩

theorem clientCalls_full (calls : List ServerOp) :
    clientFull (clientCalls calls) = (calls.map fun op => .stream (.user op)) ∧ serverFull (clientCalls calls) = [] := by
  have : clientCalls calls = (calls.map fun op => FullItem.stream (.user op)).map ProxyItem.ofClient := by
    simp [clientCalls, ProxyItem.ofClient]
  rw [this]
  exact ⟨clientFull_client _, serverFull_client _⟩

theorem streamCalls_user {ε ev ι : Type} (calls : List ι) :
    streamCalls (calls.map StreamItem.user : List (StreamItem ε ev ι)) = calls := by
  simp [streamCalls, List.filterMap_map, Function.comp_def, StreamItem.call?]

theorem streamEvents_user {ε ev ι : Type} (calls : List ι) :
    streamEvents (calls.map StreamItem.user : List (StreamItem ε ev ι)) = [] := by
  simp [streamEvents, StreamItem.event?]

theorem serverCalls_nothing (calls : List ClientOp) :
    dueCalls (serverCalls calls) = [] ∧ madeCalls (serverCalls calls) = calls ∧
    forwardedResponses (serverCalls calls) = [] ∧ serverEvents (serverCalls calls) = [] := by
  obtain ⟨h1, h2⟩ := serverCalls_sides calls
  refine ⟨?_, ?_, ?_, ?_⟩
  · rw [dueCalls, h1]; rfl
  · rw [madeCalls, h2, streamCalls_user]
  · rw [forwardedResponses, h1]; rfl
  · rw [serverEvents, h2, streamEvents_user]

theorem clientCalls_nothing (calls : List ServerOp) :
    dueCalls (clientCalls calls) = [] ∧ madeCalls (clientCalls calls) = [] ∧
    forwardedResponses (clientCalls calls) = calls.filterMap ServerOp.response? ∧ serverEvents (clientCalls calls) = [] := by
  obtain ⟨h1, h2⟩ := clientCalls_sides calls
  refine ⟨?_, ?_, ?_, ?_⟩
  · rw [dueCalls, h1, streamEvents_user]; rfl
  · rw [madeCalls, h2]; rfl
  · rw [forwardedResponses, h1, streamCalls_user]
  · rw [serverEvents, h2]; rfl

theorem serverCalls_answers (calls : List ClientOp) : madeAnswers (serverCalls calls) = [] := by
  rw [madeAnswers, (serverCalls_sides calls).1]; rfl

theorem clientCalls_answers (calls : List ServerOp) : madeAnswers (clientCalls calls) = calls := by
  rw [madeAnswers, (clientCalls_sides calls).1, streamCalls_user]

/-- An event from the client was handled. -/
theorem Ledger.client {T D : List ProxyItem} {e : ServerEvent} {calls : List ClientOp} (h : Ledger T)
    (hD : ∀ x ∈ D, x.Quiet) (hc : calls = e.passed.toList)
    (ha : ∀ d, e = .authenticateDataReceived d → (ProxyWatch.of T).asked = true) :
    Ledger (T ++ [.client (.returned (.ok e))] ++ D ++ serverCalls calls) := by
  obtain ⟨h1, h2, h3, h4⟩ := Quiet.nothing hD
  obtain ⟨g1, g2, g3, g4⟩ := serverCalls_nothing calls
  have e1 : dueCalls [.client (.returned (.ok e))] = e.passed.toList := by
    cases he : e.passed <;> simp [dueCalls, clientSide, ProxyItem.client?, streamEvents, StreamItem.event?, he]
  have e2 : madeCalls [.client (.returned (.ok e))] = [] := rfl
  have e3 : madeAnswers [.client (.returned (.ok e))] = [] := rfl
  have e4 : serverEvents [.client (.returned (.ok e))] = [] := rfl
  refine ⟨?_, ?_, ?_, ?_, ?_⟩
  · simp only [madeCalls_append, dueCalls_append, h1, h2, g1, g2, e1, e2, List.append_nil, h.calls, ← hc]
  · simp only [madeAnswers_append, serverEvents_append, Quiet.answers hD, h4, serverCalls_answers, g4, e3, e4,
      List.append_nil, h.answers]
  · intro p hp
    simp only [List.mem_append, List.mem_singleton] at hp
    rcases hp with ((hp | hp) | hp) | hp
    · exact h.calm p hp
    · cases hp
    · exact hD _ hp
    · obtain ⟨op, -, hx⟩ := List.mem_map.mp hp
      cases hx
  · rw [UnaskedData.dull (serverCalls_dull calls), UnaskedData.dull fun x hx => (hD x hx).dull, UnaskedData.snoc]
    rintro (hu | ⟨⟨d, hx⟩, hu⟩)
    · exact h.asked hu
    · cases hx
      rw [ha d rfl] at hu; cases hu
  · rw [BrokenIdle.dull (serverCalls_dull calls), BrokenIdle.dull fun x hx => (hD x hx).dull, BrokenIdle.snoc]
    rintro (hu | ⟨⟨d, st, hx⟩, hu⟩)
    · exact h.idle hu
    · cases hx

/-- An event from the server was handled. -/
theorem Ledger.server {T D : List ProxyItem} {e : ClientEvent} {calls : List ServerOp} (h : Ledger T)
    (hD : ∀ x ∈ D, x.Quiet) (hc : calls = e.answer.toList)
    (ha : ∀ hd st, e = .idleRejected hd st → (ProxyWatch.of T).idling = false) :
    Ledger (T ++ [.server (.returned (.ok e))] ++ D ++ clientCalls calls) := by
  obtain ⟨h1, h2, h3, h4⟩ := Quiet.nothing hD
  obtain ⟨g1, g2, g3, g4⟩ := clientCalls_nothing calls
  have e1 : dueCalls [.server (.returned (.ok e))] = [] := rfl
  have e2 : madeCalls [.server (.returned (.ok e))] = [] := rfl
  have e3 : madeAnswers [.server (.returned (.ok e))] = [] := rfl
  have e4 : serverEvents [.server (.returned (.ok e))] = [e] := rfl
  have e5 : [e].filterMap ClientEvent.answer = e.answer.toList := by
    cases he : e.answer <;> simp [he]
  refine ⟨?_, ?_, ?_, ?_, ?_⟩
  · simp only [madeCalls_append, dueCalls_append, h1, h2, g1, g2, e1, e2, List.append_nil, h.calls]
  · simp only [madeAnswers_append, serverEvents_append, Quiet.answers hD, h4, clientCalls_answers, g4, e3, e4,
      List.append_nil, h.answers, List.filterMap_append, e5]
    rw [hc]
  · intro p hp
    simp only [List.mem_append, List.mem_singleton] at hp
    rcases hp with ((hp | hp) | hp) | hp
    · exact h.calm p hp
    · cases hp
    · exact hD _ hp
    · obtain ⟨op, -, hx⟩ := List.mem_map.mp hp
      cases hx
  · rw [UnaskedData.dull (clientCalls_dull calls), UnaskedData.dull fun x hx => (hD x hx).dull, UnaskedData.snoc]
    rintro (hu | ⟨⟨d, hx⟩, hu⟩)
    · exact h.asked hu
    · cases hx
  · rw [BrokenIdle.dull (clientCalls_dull calls), BrokenIdle.dull fun x hx => (hD x hx).dull, BrokenIdle.snoc]
    rintro (hu | ⟨⟨d, st, hx⟩, hu⟩)
    · exact h.idle hu
    · cases hx
      rw [ha d st rfl] at hu; cases hu

end ImapFlow
