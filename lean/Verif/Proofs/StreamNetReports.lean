import Verif.Proofs.StreamNetResponses
import Verif.Props.C35

/-!
# Two streams: everything that the client reports
-/

namespace ImapFlow

variable {L : Lib} {gc gs : HandleGenerator} {oc : ClientOptions} {os : ServerOptions} {gr : Greeting} {n : Net}
  {T : List NItem}

theorem GoodCommands.remaining (hc : GoodCommands L os (clientItems T)) {A B : List CItem} (e : clientItems T = A ++ B)
    {x : RawHandle × Command} (h : x ∈ (ClientView.of A).remaining) : x.2.isRegular = true := by
  refine hc.regular x ?_
  have hm : x ∈ (ClientView.of A).enqueued := List.mem_of_mem_drop h
  rw [(ClientView.of_fields A).2.2.1] at hm
  rw [e, clientEnqueued_append]
  exact List.mem_append_left _ hm

theorem Command.regular_only {c : Command} (h : c.isRegular = true) : c.isAuthenticate = false ∧ c.isIdle = false := by
  cases hb : c.body <;> simp [Command.isRegular, Command.isAuthenticate, Command.isIdle, hb] at h ⊢

/-- The events of a client with regular commands that are not rejected. -/
theorem Net.Linked.report_item (hL : L.Lawful) (h : Net.Linked L gc oc gs os gr n T)
    (hc : GoodCommands L os (clientItems T)) {i : CItem} (hi : i ∈ clientItems T) {ev : ClientEvent}
    (he : i.result?.bind Except.toOption = some ev) :
    (∃ hd c, ev = .commandSent hd c) ∨ (∃ g, ev = .greetingReceived g ∧ i.decoded L = [.greeting g]) ∨
    ∃ r, ev = r.report ∧ i.decoded L = [.response r] := by
  obtain ⟨ops, ht⟩ := h.client
  obtain ⟨A, B, e⟩ := List.append_of_mem hi
  have ht' := ht
  rw [e] at ht'
  have hv := Client.trace_guard hL ht'
  cases i with
  | sent e' =>
    cases he
    obtain ⟨-, hd, cmd, q, hq, hx⟩ := hv
    obtain ⟨r1, r2⟩ := Command.regular_only (hc.remaining e (x := (hd, cmd)) (by rw [hq]; exact List.mem_cons_self ..))
    rcases hx with ⟨rfl, -⟩ | ⟨-, hx, -⟩ | ⟨-, hx, -⟩ | ⟨-, hx, -⟩
    · exact .inl ⟨_, _, rfl⟩
    · simp only at r1 hx; rw [r1] at hx; cases hx
    · simp only at r2 hx; rw [r2] at hx; cases hx
    · simp only at r2 hx; rw [r2] at hx; cases hx
  | received w ev' =>
    cases he
    obtain ⟨-, -, ⟨-, g, rfl, -⟩ | ⟨-, r, hr, -⟩⟩ := hv
    · exact .inr (.inl ⟨g, rfl, rfl⟩)
    · rcases ClientView.route_cases hr with ⟨d, rfl⟩ | ⟨st, rfl⟩ | ⟨q, rfl, rfl⟩ | ⟨hd, cmd, hcur, hx⟩
      · exact .inr (.inr ⟨.data d, rfl, rfl⟩)
      · exact .inr (.inr ⟨.status st, rfl, rfl⟩)
      · exact .inr (.inr ⟨.continuationRequest q, rfl, rfl⟩)
      · have hreg := hc.current e hcur
        obtain ⟨r1, r2⟩ := Command.regular_only hreg
        simp only at r1 r2
        rcases hx with ⟨st, rfl, -⟩ | ⟨_, _, -, hx⟩ | ⟨_, -, hx⟩ | ⟨_, -, hx, -⟩ | ⟨_, -, hx, -⟩
        · refine (hc.accepted hd cmd st ?_).elim
          exact List.mem_filterMap.2 ⟨_, hi, rfl⟩
        all_goals simp_all
  | _ => cases he

/-- The messages of a server that receives such commands. -/
theorem Net.Linked.message_cases (hL : L.Lawful) (h : Net.Linked L gc oc gs os gr n T) (hmax : 0 < os.maxCommandSize)
    (hc : GoodCommands L os (clientItems T)) {m : ServerMessage} (hm : m ∈ serverMessages gr (serverItems T)) :
    m = .greeting gr ∨ (∃ hd r, m = .response hd r ∧ r ∈ (serverItems T).filterMap SItem.requested?) ∨
    ∃ r mode, m = .response none r ∧ m ∈ acceptReply L os mode := by
  rcases List.mem_cons.1 hm with rfl | hm
  · exact .inl rfl
  · refine .inr ?_
    obtain ⟨i, hi, hmi⟩ := List.mem_flatMap.1 hm
    have hreq : ∀ r, i.requested? = some r → r ∈ (serverItems T).filterMap SItem.requested? :=
      fun r hr => List.mem_filterMap.2 ⟨i, hi, hr⟩
    obtain ⟨v, hv⟩ := h.server_guard hi
    cases i with
    | enqueue hd r => cases List.mem_singleton.1 hmi; exact .inl ⟨_, _, rfl, hreq _ rfl⟩
    | authContinue q r =>
      cases r with
      | error _ => cases hmi
      | ok hd => cases List.mem_singleton.1 hmi; exact .inl ⟨_, _, rfl, hreq _ rfl⟩
    | authFinish q r =>
      cases r with
      | error _ => cases hmi
      | ok hd => cases List.mem_singleton.1 hmi; exact .inl ⟨_, _, rfl, hreq _ rfl⟩
    | idleAccept q r =>
      cases r with
      | error _ => cases hmi
      | ok hd => cases List.mem_singleton.1 hmi; exact .inl ⟨_, _, rfl, hreq _ rfl⟩
    | idleReject q r =>
      cases r with
      | error _ => cases hmi
      | ok hd => cases List.mem_singleton.1 hmi; exact .inl ⟨_, _, rfl, hreq _ rfl⟩
    | literal p rs =>
      obtain ⟨-, -, -, -, -, tag, k, mode, -, -, rfl⟩ := hv
      have hmi' : m ∈ acceptReply L os mode := hmi
      have : ∃ r, m = .response none r := by
        unfold acceptReply at hmi'
        repeat' split at hmi'
        all_goals first
          | (cases hmi'; done)
          | (rw [List.mem_singleton] at hmi'; exact ⟨_, hmi'⟩)
      obtain ⟨r, rfl⟩ := this
      exact .inr ⟨r, mode, rfl, hmi'⟩
    | failed e rs =>
      exfalso
      obtain ⟨k, -, h2, -⟩ := h.commands hL hmax hc (T1 := serverItems T) (T2 := []) (by simp)
      have : SItem.failed e rs ∈ (serverItems T).filter SItem.reads := List.mem_filter.mpr ⟨hi, rfl⟩
      rw [h2] at this
      obtain ⟨x, -, hx⟩ := List.mem_map.mp this
      cases hx
    | _ => cases hmi

/-- Everything that is returned to the user of the client. -/
theorem Net.Linked.reports (hL : L.Lawful) (h : Net.Linked L gc oc gs os gr n T) (hmax : 0 < os.maxCommandSize)
    (hc : GoodCommands L os (clientItems T))
    (hp : clientDecoded L (clientItems T) <+: (serverMessages gr (serverItems T)).map ServerMessage.content)
    {S : List (StreamItem ClientError ClientEvent ClientOp)} (hS : ClientRecord S (clientItems T))
    (he : events S = S.filterMap fun i => i.poll?.bind Except.toOption)
    {S' : List (StreamItem ServerError ServerEvent ServerOp)} (hS' : ServerRecord S' (serverItems T))
    {e : ClientEvent} (hm : e ∈ events S) :
    (∃ hd c, e = .commandSent hd c) ∨ e = .greetingReceived gr ∨
    ∃ r, e = r.report ∧
      (r ∈ S'.filterMap StreamItem.response? ∨ ∃ mode, ServerMessage.response none r ∈ acceptReply L os mode) := by
  have h1 : events S = ((clientItems T).filterMap CItem.result?).filterMap Except.toOption := by
    rw [he, hS.results, List.filterMap_filterMap]
  rw [h1, List.filterMap_filterMap] at hm
  obtain ⟨i, hi, hie⟩ := List.mem_filterMap.1 hm
  have hdec : ∀ x ∈ i.decoded L, ∃ m ∈ serverMessages gr (serverItems T), m.content = x := by
    intro x hx
    have : x ∈ clientDecoded L (clientItems T) := List.mem_flatMap.2 ⟨i, hi, hx⟩
    obtain ⟨m, hm, hme⟩ := List.mem_map.1 (hp.subset this)
    exact ⟨m, hm, hme⟩
  rcases h.report_item hL hc hi (ev := e) (by cases hr : i.result? <;> rw [hr] at hie <;> exact hie) with
    hx | ⟨g, rfl, hx⟩ | ⟨r, rfl, hx⟩
  · exact .inl hx
  · obtain ⟨m, hm, hme⟩ := hdec (.greeting g) (by rw [hx]; simp)
    rcases h.message_cases hL hmax hc hm with rfl | ⟨_, _, rfl, -⟩ | ⟨_, _, rfl, -⟩
    · cases hme; exact .inr (.inl rfl)
    · cases hme
    · cases hme
  · obtain ⟨m, hm, hme⟩ := hdec (.response r) (by rw [hx]; simp)
    refine .inr (.inr ⟨r, rfl, ?_⟩)
    rcases h.message_cases hL hmax hc hm with rfl | ⟨_, _, rfl, hr⟩ | ⟨_, mode, rfl, hr⟩
    · cases hme
    · cases hme; rw [hS'.enqueued] at hr; exact .inl hr
    · cases hme; exact .inr ⟨mode, hr⟩

/-! ## Errors and the first event -/

section
variable {K σ ε ev ι : Type}

theorem FullStream.Advanced.state_error {M : Machine σ ε ev ι} {c c' : FullStream K σ} {T : List (FullItem ε ev ι)}
    (h : Advanced M c c' T) {e : ε} (he : .returned (.error (.state e)) ∈ streamPart T) :
    .poll (.error (.error e)) ∈ streamPart T := by
  have hD : ∀ {b s s1} {D : List (StreamItem ε ev ι)}, Provides M b s s1 D → D = [] ∨ D = [.deliver b] := by
    rintro b s s1 D (⟨-, -, rfl⟩ | ⟨-, -, rfl⟩)
    · exact .inl rfl
    · exact .inr rfl
  cases h with
  | hung => cases he
  | broken => cases he
  | inputPanic => simp [streamPart, FullItem.stream?] at he
  | nextPanic h1 h2 => rcases hD h2 with rfl | rfl <;> simp [streamPart, FullItem.stream?] at he
  | @returned _ _ _ D _ _ r h1 h2 h3 h4 =>
    rw [streamPart_map] at he ⊢
    rcases r with (io | e') | e'
    · exact (h4 io rfl).elim
    · rcases hD h2 with rfl | rfl <;> simp [returns] at he <;> subst he <;> simp [returns]
    · rcases hD h2 with rfl | rfl <;> simp [returns] at he
  | waits h1 h2 => rw [streamPart_map] at he; rcases hD h2 with rfl | rfl <;> simp at he
  | refused h1 h2 => rcases hD h2 with rfl | rfl <;> simp [streamPart, FullItem.stream?] at he

/-- An error of the state that is returned is one of the state. -/
theorem FullStream.Stepped.state_error {M : Machine σ ε ev ι} {c c' : FullStream K σ} {T : List (FullItem ε ev ι)}
    (h : Stepped M c c' T) {e : ε} (he : .returned (.error (.state e)) ∈ streamPart T) :
    .poll (.error (.error e)) ∈ streamPart T := by
  have key : ∀ {x : StreamItem ε ev ι} {T : List (FullItem ε ev ι)}, x ≠ .returned (.error (.state e)) →
      (.returned (.error (.state e)) ∈ streamPart T → .poll (.error (.error e)) ∈ streamPart T) →
      .returned (.error (.state e)) ∈ streamPart (.stream x :: T) → .poll (.error (.error e)) ∈ streamPart (.stream x :: T) := by
    intro x T hx h he
    rw [streamPart_cons] at he ⊢
    rcases List.mem_cons.1 he with he | he
    · exact (hx he.symm).elim
    · exact List.mem_cons_of_mem _ (h he)
  cases h with
  | user => simp [streamPart, FullItem.stream?] at he
  | userPanic => simp [streamPart, FullItem.stream?] at he
  | callNext h1 h2 => exact key (by simp) h2.state_error he
  | read h1 h2 h3 => exact key (by simp) h3.state_error he
  | written h1 h2 h3 h4 => exact key (by simp) h4.state_error he
  | wrote h1 h2 h3 h4 => rw [streamPart_map] at he; rcases h4 with ⟨-, rfl, -⟩ | ⟨-, -, rfl, -⟩ <;> simp at he
  | flush h1 h2 h3 => rw [streamPart_map] at he; rcases h3 with ⟨-, rfl, -⟩ | ⟨-, rfl, -⟩ <;> simp at he
  | ended h1 h2 =>
    rcases h2 with ⟨-, rfl, rfl⟩ | ⟨-, rfl, rfl⟩ | ⟨-, rfl, rfl⟩ | ⟨-, rfl, rfl⟩ | ⟨-, rfl, rfl⟩ <;>
      simp [streamPart, FullItem.stream?] at he
  | dropped => simp [streamPart, FullItem.stream?] at he

theorem FullStream.run_state_error {M : Machine σ ε ev ι} {c c' : FullStream K σ} {as : List (StreamAct ι)}
    {T : List (FullItem ε ev ι)} (h : c.run M as = some (c', T)) {e : ε} (he : .returned (.error (.state e)) ∈ streamPart T) :
    .poll (.error (.error e)) ∈ streamPart T := by
  induction as generalizing c T with
  | nil => cases h; cases he
  | cons a as ih =>
    obtain ⟨c1, T1, T2, h1, h2, rfl⟩ := run_cons h
    rw [streamPart_append, List.mem_append] at he ⊢
    exact he.imp (step_cases h1).state_error (ih h2)

end

/-- A client with good messages and a server with good commands have no errors. -/
theorem ClientRecord.no_errors {S : List (StreamItem ClientError ClientEvent ClientOp)} {U : List CItem}
    (hS : ClientRecord S U) (h : ∀ e, .failed e ∉ U) {e : ClientError} : .poll (.error (.error e)) ∉ S := by
  intro hm
  have : Except.error (.error e) ∈ S.filterMap StreamItem.poll? := List.mem_filterMap.2 ⟨_, hm, rfl⟩
  rw [← hS.results] at this
  obtain ⟨i, hi, hie⟩ := List.mem_filterMap.1 this
  cases i with
  | failed e' => exact h e' hi
  | _ => cases hie

theorem ServerRecord.no_errors {S : List (StreamItem ServerError ServerEvent ServerOp)} {U : List SItem}
    (hS : ServerRecord S U) (h : ∀ e rs, .failed e rs ∉ U) {e : ServerError} : .poll (.error (.error e)) ∉ S := by
  intro hm
  have : Except.error (.error e) ∈ S.filterMap StreamItem.poll? := List.mem_filterMap.2 ⟨_, hm, rfl⟩
  rw [← hS.results] at this
  obtain ⟨i, hi, hie⟩ := List.mem_filterMap.1 this
  cases i with
  | failed e' rs => exact h e' rs hi
  | _ => cases hie

/-- The first event of a client is the greeting. -/
theorem Client.first_event (hL : L.Lawful) {g : HandleGenerator} {o : ClientOptions} {ops : List ClientOp} {c : Client}
    {U : List CItem} (h : (Client.new g o).trace L ops = .ok (c, U)) {e : ClientEvent} {es : List ClientEvent}
    (he : (U.filterMap fun i => i.result?.bind Except.toOption) = e :: es) : ∃ g, e = .greetingReceived g := by
  obtain ⟨A, i, B, rfl, hA, hi, -⟩ := List.filterMap_eq_cons_iff.1 he
  have hv := Client.trace_guard hL h
  have hg : (ClientView.of A).greeted = false := by
    cases hx : (ClientView.of A).greeted with
    | false => rfl
    | true =>
      obtain ⟨i', hi', g, hie⟩ := (ClientView.of_greeted A).1 hx
      have := hA i' hi'
      cases i' <;> first | (cases hie; done) | cases this
  cases i with
  | sent e' => rw [hv.1] at hg; cases hg
  | received w e' =>
    cases hi
    obtain ⟨-, -, ⟨-, g, rfl, -⟩ | ⟨hx, -⟩⟩ := hv
    · exact ⟨g, rfl⟩
    · rw [hx] at hg; cases hg
  | _ => cases hi

end ImapFlow
