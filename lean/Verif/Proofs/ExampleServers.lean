import Verif.Proofs.ExampleSteps
import Verif.Proofs.RelayCoupled
import Verif.Proofs.RelayJoined
import Verif.Proofs.NetMessages
import Verif.Props.C08

/-!
# Invariants of the example servers
-/

namespace ImapFlow

variable {L : Lib} {g : HandleGenerator} {o : ServerOptions} {gr : Greeting}

/-! ## Before the greeting was sent -/

/-- Nothing happened yet except input and output. -/
def Beginning (A : List SItem) : Prop := ∀ i ∈ A, (∃ b, i = .input b) ∨ ∃ b, i = .output b

theorem Beginning.view {A : List SItem} (h : Beginning A) : (ServerView.of gr A).finished = 0 ∧
    (ServerView.of gr A).quiet = false ∧ (ServerView.of gr A).messages = [.greeting gr] ∧
    (ServerView.of gr A).phase = .command := by
  induction A using snocInduction with
  | nil => exact ⟨rfl, rfl, rfl, rfl⟩
  | snoc A i ih =>
    obtain ⟨h1, h2, h3, h4⟩ := ih fun j hj => h j (by simp [hj])
    rw [ServerView.of_snoc]
    rcases h i (by simp) with ⟨b, rfl⟩ | ⟨b, rfl⟩
    · exact ⟨h1, rfl, h3, h4⟩
    · exact ⟨h1, rfl, h3, h4⟩

theorem Beginning.not_clear {A : List SItem} (h : Beginning A) : ¬ (ServerView.of gr A).Clear := by
  obtain ⟨h1, h2, h3, -⟩ := h.view (gr := gr)
  rintro ⟨h4, h5 | h5⟩
  · rw [h2] at h5; cases h5
  · rw [h3, ← h4, h1] at h5; cases h5

theorem Beginning.silent {A B : List SItem} {i : SItem} {ops : List ServerOp} {s : Server} (h : Beginning A) (hi : i.Silent)
    (ht : (Server.new g o gr).trace L ops = .ok (s, A ++ i :: B)) : Beginning (A ++ [i]) := by
  have hg := Server.trace_guard ht
  intro j hj
  rcases List.mem_append.1 hj with hj | hj
  · exact h j hj
  rw [List.mem_singleton.1 hj]
  cases i with
  | input b => exact .inl ⟨b, rfl⟩
  | output b => exact .inr ⟨b, rfl⟩
  | quiet =>
    obtain ⟨-, m, h1, h2⟩ := hg
    obtain ⟨h3, -, h4, -⟩ := h.view (gr := gr)
    rw [h3, h4] at h1
    cases h1
    cases h2
  | literal p rs => exact (h.not_clear hg.1).elim
  | failed e rs => exact (h.not_clear hg.1).elim
  | starved => exact (h.not_clear hg.1).elim
  | _ => exact hi.elim

theorem Beginning.event {A : List SItem} {i : SItem} {e : ServerEvent} {ops : List ServerOp} {s : Server} (h : Beginning A)
    (hi : i.event? = some e) (ht : (Server.new g o gr).trace L ops = .ok (s, A ++ [i])) :
    e = .greetingSent gr ∧ i = .sent (.greetingSent gr) := by
  have hg := Server.trace_guard (T2 := []) ht
  cases i with
  | sent e' =>
    cases hi
    obtain ⟨-, m, h1, h2⟩ := hg
    obtain ⟨h3, -, h4, -⟩ := h.view (gr := gr)
    rw [h3, h4] at h1
    cases h1
    cases h2
    exact ⟨rfl, rfl⟩
  | received w e' => exact (h.not_clear hg.1).elim
  | _ => cases hi

theorem Beginning.nil : Beginning [] := by simp [Beginning]

/-! ## Events -/

/-- Which event can follow. -/
theorem Server.event_cases {A B : List SItem} {i : SItem} {e : ServerEvent} {ops : List ServerOp} {s : Server}
    (hi : i.event? = some e) (ht : (Server.new g o gr).trace L ops = .ok (s, A ++ i :: B)) :
    (∃ gr', e = .greetingSent gr' ∧ i = .sent e ∧
      (ServerView.of gr A).messages[(ServerView.of gr A).finished]? = some (.greeting gr')) ∨
    (∃ hd r, e = .responseSent hd r ∧ i = .sent e ∧
      (ServerView.of gr A).messages[(ServerView.of gr A).finished]? = some (.response (some hd) r)) ∨
    (∃ w, ∃ c : Command, e = c.event ∧ i = .received w e ∧ (ServerView.of gr A).phase = .command) ∨
    (∃ w d, e = .authenticateDataReceived d ∧ i = .received w e ∧ (ServerView.of gr A).phase = .authenticate) ∨
    (∃ w, e = .idleDoneReceived ∧ i = .received w e ∧ (ServerView.of gr A).phase = .idle) := by
  have hg := Server.trace_guard ht
  cases i with
  | sent e' =>
    cases hi
    obtain ⟨-, m, h1, h2⟩ := hg
    cases m with
    | greeting g => cases h2; exact .inl ⟨g, rfl, rfl, h1⟩
    | response hd r =>
      cases hd with
      | none => cases h2
      | some hd => cases h2; exact .inr (.inl ⟨hd, r, rfl, rfl, h1⟩)
  | received w e' =>
    cases hi
    obtain ⟨-, -, -, h1, -⟩ := hg
    generalize hp : (ServerView.of gr A).phase = p at h1
    cases p with
    | command => obtain ⟨c, -, h1⟩ := h1; exact .inr (.inr (.inl ⟨w, c, h1, rfl, rfl⟩))
    | authenticate => obtain ⟨d, -, h1⟩ := h1; exact .inr (.inr (.inr (.inl ⟨w, d, h1, rfl, rfl⟩)))
    | idlePending => exact h1.elim
    | idle => exact .inr (.inr (.inr (.inr ⟨w, h1.2, rfl, rfl⟩)))
  | _ => cases hi

/-- The greeting is reported as sent first, and only once. -/
theorem Server.greeting_first {A B : List SItem} {ops : List ServerOp} {s : Server}
    (h : (Server.new g o gr).trace L ops = .ok (s, A ++ B)) :
    ((ServerView.of gr A).finished = 0 ↔ A.filterMap SItem.event? = []) ∧
    ((ServerView.of gr A).finished = 0 → (ServerView.of gr A).quiet = false) ∧
    GreetingSentFirst gr (A.filterMap SItem.event?) := by
  have hgf := Server.greetingFirst h
  induction A using snocInduction generalizing B with
  | nil => exact ⟨by simp [ServerView.of, ServerView.start], fun _ => rfl, fun es1 e es2 h => by simp at h⟩
  | snoc A i ih =>
    have hgf' := hgf
    rw [List.append_assoc] at h hgf
    obtain ⟨h1, h2, h3⟩ := ih h hgf
    have hm : ∀ n m, (ServerView.of gr A).messages[n]? = some m → ((∃ g, m = .greeting g) ↔ n = 0) ∧ (n = 0 → m = .greeting gr) := by
      intro n m hx
      rw [(ServerView.of_fields gr A).2.2.1] at hx
      constructor
      · apply hgf n m
        have : serverMessages gr (A ++ ([i] ++ B)) = serverMessages gr A ++ ([i] ++ B).flatMap SItem.enqueues := by
          simp [serverMessages]
        rw [this, List.getElem?_append_left (List.getElem?_eq_some_iff.1 hx).1]
        exact hx
      · rintro rfl
        simp only [serverMessages, List.getElem?_cons_zero, Option.some.injEq] at hx
        exact hx.symm
    cases hi : i.event? with
    | none =>
      have hf : ((ServerView.of gr (A ++ [i])).finished = 0 ↔ (ServerView.of gr A).finished = 0) ∧
          ((ServerView.of gr A).finished = 0 → (ServerView.of gr (A ++ [i])).quiet = false) := by
        rw [ServerView.of_snoc]
        cases i with
        | quiet =>
          obtain ⟨-, m, h4, h5⟩ := Server.trace_guard (T2 := B) h
          have hn : (ServerView.of gr A).finished ≠ 0 := by
            intro h0
            rw [(hm _ _ h4).2 h0] at h5
            cases h5
          exact ⟨⟨nofun, fun h0 => (hn h0).elim⟩, fun h0 => (hn h0).elim⟩
        | authContinue q r => cases r <;> exact ⟨Iff.rfl, fun _ => rfl⟩
        | authFinish q r => cases r <;> exact ⟨Iff.rfl, fun _ => rfl⟩
        | idleAccept q r => cases r <;> exact ⟨Iff.rfl, fun _ => rfl⟩
        | idleReject q r => cases r <;> exact ⟨Iff.rfl, fun _ => rfl⟩
        | _ => first | exact ⟨Iff.rfl, fun _ => rfl⟩ | cases hi
      simp only [List.filterMap_append, List.filterMap_cons, hi, List.filterMap_nil, List.append_nil]
      exact ⟨hf.1.trans h1, fun h0 => hf.2 (hf.1.1 h0), h3⟩
    | some e =>
      simp only [List.filterMap_append, List.filterMap_cons, hi, List.filterMap_nil]
      have key : (ServerView.of gr (A ++ [i])).finished ≠ 0 ∧ ((ServerView.of gr A).finished = 0 → e = .greetingSent gr) ∧
          ((ServerView.of gr A).finished ≠ 0 → ∀ g, e ≠ .greetingSent g) := by
        have hr : ∀ w e', i = .received w e' → (ServerView.of gr A).finished ≠ 0 := by
          rintro w e' rfl h0
          obtain ⟨⟨h4, h5⟩, -⟩ := Server.trace_guard (T2 := B) h
          rcases h5 with h5 | h5
          · rw [h2 h0] at h5; cases h5
          · rw [← h4, h0, (ServerView.of_fields gr A).2.2.1] at h5
            cases h5
        rw [ServerView.of_snoc]
        rcases Server.event_cases hi h with ⟨gr', rfl, rfl, h5⟩ | ⟨hd, r, rfl, rfl, h5⟩ | ⟨w, c, rfl, rfl, h5⟩ |
          ⟨w, d, rfl, rfl, h5⟩ | ⟨w, rfl, rfl, h5⟩
        · have h0 := (hm _ _ h5).1.1 ⟨gr', rfl⟩
          refine ⟨nofun, fun _ => ?_, fun hn => (hn h0).elim⟩
          cases (hm _ _ h5).2 h0
          rfl
        · refine ⟨nofun, fun h0 => ?_, fun _ => nofun⟩
          cases (hm _ _ h5).2 h0
        · have := hr _ _ rfl
          refine ⟨this, fun h0 => (this h0).elim, fun _ => ?_⟩
          obtain ⟨t, b⟩ := c
          cases b <;> nofun
        · have := hr _ _ rfl
          exact ⟨this, fun h0 => (this h0).elim, fun _ => nofun⟩
        · have := hr _ _ rfl
          exact ⟨this, fun h0 => (this h0).elim, fun _ => nofun⟩
      obtain ⟨k1, k2, k3⟩ := key
      refine ⟨⟨fun h0 => (k1 h0).elim, by simp⟩, fun h0 => (k1 h0).elim, fun es1 e' es2 hx => ?_⟩
      have last : e' = e → es1 = A.filterMap SItem.event? →
          (es1 = [] → e' = .greetingSent gr) ∧ (es1 ≠ [] → ∀ g, e' ≠ .greetingSent g) := by
        rintro rfl rfl
        exact ⟨fun h0 => k2 (h1.2 h0), fun h0 => k3 fun hf => h0 (h1.1 hf)⟩
      rcases List.append_eq_append_iff.1 hx with ⟨as, h5, h6⟩ | ⟨bs, h5, h6⟩
      · cases as with
        | nil =>
          simp only [List.nil_append, List.cons.injEq] at h6
          exact last h6.1.symm (by rw [h5, List.append_nil])
        | cons x as => simp at h6
      · cases bs with
        | nil =>
          simp only [List.nil_append, List.cons.injEq] at h6
          exact last h6.1 (by rw [h5, List.append_nil])
        | cons x bs =>
          simp only [List.cons_append, List.cons.injEq] at h6
          obtain ⟨rfl, -⟩ := h6
          exact h3 es1 _ bs h5

theorem SItem.silent_allowed {i : SItem} (h : i.Silent) (d : ServerDialogue) : d.Allows i ∧ d.observe i = d := by
  cases i <;> first | exact ⟨trivial, rfl⟩ | exact h.elim

theorem SItem.event_allowed {i : SItem} {e : ServerEvent} (h : i.event? = some e) (d : ServerDialogue) : d.Allows i := by
  cases i <;> first | trivial | cases h

theorem SItem.silent_phase {i : SItem} (h : i.Silent) (v : ServerView) : (v.observe i).phase = v.phase := by
  cases i <;> first | rfl | exact h.elim

/-- Responses of the server itself have no handle. -/
theorem SItem.silent_handles {A B : List SItem} {i : SItem} {ops : List ServerOp} {s : Server} (hi : i.Silent)
    (ht : (Server.new g o gr).trace L ops = .ok (s, A ++ i :: B)) : ∀ m ∈ i.enqueues, ∃ r, m = .response none r := by
  have hg := Server.trace_guard ht
  intro m hm
  cases i with
  | literal p rs =>
    obtain ⟨-, -, -, -, -, tag, k, mode, -, -, rfl⟩ := hg
    simp only [SItem.enqueues, acceptReply] at hm
    repeat' split at hm
    all_goals simp at hm
    exact ⟨_, hm⟩
  | failed e rs =>
    obtain ⟨-, -, h1, -⟩ := hg
    have hm : m ∈ rs := hm
    unfold Discarded at h1
    have none : rs = [] → ∃ r, m = .response none r := by rintro rfl; cases hm
    split at h1
    · split at h1
      · obtain ⟨-, tag, k, mode, -, -, rfl⟩ := h1
        cases mode with
        | nonSync => cases hm
        | sync =>
          cases hl : o.literalRejectText with
          | error p => simp [SItem.enqueues, rejectReply, hl] at hm
          | ok text =>
            simp only [SItem.enqueues, rejectReply, hl, List.mem_singleton] at hm
            exact ⟨_, hm⟩
      · exact none h1.1
      · exact none h1.1
    · exact none h1.1
    · exact h1.elim
    · exact none h1.1
  | _ => first | exact hi.elim | cases hm

/-! ## Calls -/

theorem Server.Calls.nil (s : Server) : s.Calls L [] s [] := ⟨rfl, .inl rfl⟩

theorem Server.Calls.enqueueStatus (s : Server) (st : Status) :
    s.Calls L [.enqueueStatus st] (s.enqueueStatus st).1 [.enqueue (s.enqueueStatus st).2 (.status st)] :=
  ⟨rfl, .inr ⟨_, rfl, nofun, nofun⟩⟩

theorem Server.Calls.enqueueData (s : Server) (d : Data) :
    s.Calls L [.enqueueData d] (s.enqueueData d).1 [.enqueue (s.enqueueData d).2 (.data d)] :=
  ⟨rfl, .inr ⟨_, rfl, nofun, nofun⟩⟩

theorem Server.authContinue_ok {ops : List ServerOp} {s : Server} {A : List SItem}
    (h : (Server.new g o gr).trace L ops = .ok (s, A)) (hp : (ServerView.of gr A).phase = .authenticate)
    (q : ContinuationRequest) : ∃ s' hd, s.authenticateContinue q = (s', .ok hd) ∧
      s.Calls L [.authenticateContinue q] s' [.authContinue q (.ok hd)] := by
  have ht : s.trace L [.authenticateContinue q] = .ok ((s.authenticateContinue q).1,
      [.authContinue q (s.authenticateContinue q).2]) := Server.trace_one rfl
  obtain ⟨hd, hr⟩ := Granted.ok (Server.trace_guard (T2 := []) (Server.trace_join h ht)) hp
  rw [hr] at ht
  exact ⟨_, hd, Prod.ext rfl hr, ht, .inr ⟨_, rfl, nofun, nofun⟩⟩

theorem Server.call_safe (hL : L.Lawful) (hO : ServerOptions.Built L o) {ops : List ServerOp} {s : Server} {A : List SItem}
    (h : (Server.new g o gr).trace L ops = .ok (s, A)) (op : ServerOp) : ∃ s' J, s.callTrace L op = .ok (s', J) := by
  obtain ⟨x, hx⟩ := Server.trace_safe hL hO.usable (Server.new_inv L g o gr) (ops ++ [op])
  rw [Server.trace_append, h] at hx
  cases hs : s.callTrace L op with
  | error p => simp [Server.trace, hs] at hx
  | ok y => exact ⟨y.1, y.2, rfl⟩

theorem Server.authFinish_ok (hL : L.Lawful) (hO : ServerOptions.Built L o) {ops : List ServerOp} {s : Server} {A : List SItem}
    (h : (Server.new g o gr).trace L ops = .ok (s, A)) (hp : (ServerView.of gr A).phase = .authenticate)
    (st : Status) : ∃ s' hd, s.authenticateFinish st = .ok (s', .ok hd) ∧
      s.Calls L [.authenticateFinish st] s' [.authFinish st (.ok hd)] := by
  obtain ⟨s', J, hJ⟩ := Server.call_safe hL hO h (.authenticateFinish st)
  cases hs : s.authenticateFinish st with
  | error p => simp [Server.callTrace, hs, Except.map] at hJ
  | ok y =>
    obtain ⟨s1, r⟩ := y
    have ht : s.trace L [.authenticateFinish st] = .ok (s1, [.authFinish st r]) :=
      Server.trace_one (by simp [Server.callTrace, hs, Except.map])
    obtain ⟨hd, hr⟩ := Granted.ok (Server.trace_guard (T2 := []) (Server.trace_join h ht)) hp
    rw [hr] at ht ⊢
    exact ⟨_, hd, rfl, ht, .inr ⟨_, rfl, nofun, nofun⟩⟩

theorem Server.idleAccept_any (hL : L.Lawful) (hO : ServerOptions.Built L o) {ops : List ServerOp} {s : Server} {A : List SItem}
    (h : (Server.new g o gr).trace L ops = .ok (s, A)) (q : ContinuationRequest) :
    ∃ s' r, s.idleAccept q = .ok (s', r) ∧ s.Calls L [.idleAccept q] s' [.idleAccept q r] ∧
      Granted ((ServerView.of gr A).phase = .idlePending) q r := by
  obtain ⟨s', J, hJ⟩ := Server.call_safe hL hO h (.idleAccept q)
  cases hs : s.idleAccept q with
  | error p => simp [Server.callTrace, hs, Except.map] at hJ
  | ok y =>
    obtain ⟨s1, r⟩ := y
    have ht : s.trace L [.idleAccept q] = .ok (s1, [.idleAccept q r]) :=
      Server.trace_one (by simp [Server.callTrace, hs, Except.map])
    exact ⟨_, r, rfl, ⟨ht, .inr ⟨_, rfl, nofun, nofun⟩⟩, Server.trace_guard (T2 := []) (Server.trace_join h ht)⟩

theorem Server.idleReject_any (hL : L.Lawful) (hO : ServerOptions.Built L o) {ops : List ServerOp} {s : Server} {A : List SItem}
    (h : (Server.new g o gr).trace L ops = .ok (s, A)) (st : Status) :
    ∃ s' r, s.idleReject st = .ok (s', r) ∧ s.Calls L [.idleReject st] s' [.idleReject st r] ∧
      Granted ((ServerView.of gr A).phase = .idlePending) st r := by
  obtain ⟨s', J, hJ⟩ := Server.call_safe hL hO h (.idleReject st)
  cases hs : s.idleReject st with
  | error p => simp [Server.callTrace, hs, Except.map] at hJ
  | ok y =>
    obtain ⟨s1, r⟩ := y
    have ht : s.trace L [.idleReject st] = .ok (s1, [.idleReject st r]) :=
      Server.trace_one (by simp [Server.callTrace, hs, Except.map])
    exact ⟨_, r, rfl, ⟨ht, .inr ⟨_, rfl, nofun, nofun⟩⟩, Server.trace_guard (T2 := []) (Server.trace_join h ht)⟩

/-! ## Texts -/

namespace Examples

theorem status_ok (hE : L.Exemplary) (kind : StatusKind) (tag : Tag) {text : Text}
    (h : text ∈ [ascii "...", ascii "Thanks, that's already enough!", ascii "Thanks!", ascii "Please use AUTHENTICATE"]) :
    status L kind tag text = .ok (.tagged tag { kind, code := none, text }) := by
  have := hE.texts text (by
    simp only [List.mem_cons, List.not_mem_nil, or_false] at h ⊢
    rcases h with h | h | h | h <;> simp [h])
  simp [status, this]

theorem request_ok (hE : L.Exemplary) {text : Text}
    (h : text ∈ [ascii "...", ascii "I need more data...", ascii "...more..."]) :
    request L text = .ok (.basic none text) := by
  have h1 := hE.texts text (by
    simp only [List.mem_cons, List.not_mem_nil, or_false] at h ⊢
    rcases h with h | h | h <;> simp [h])
  have h2 := hE.requests text h
  simp [request, Lib.ccrBasicFromStr, h1, h2]

/-! ## server.rs -/

/-- The handles of the responses that were not sent yet. -/
def pending (v : ServerView) : List RawHandle :=
  (v.messages.drop v.finished).filterMap fun
    | .response h _ => h
    | .greeting _ => none

/-- The regular command that was reported. -/
def commandOf (i : SItem) : Option Command := i.event?.bind ServerEvent.regular?

/-- The answer of `server.rs` to a command. -/
def answer (c : Command) : ServerOp := .enqueueStatus (.tagged c.tag { kind := .no, code := none, text := ascii "..." })

/-- What holds while `server.rs` awaits an event. -/
def NoInv (gr : Greeting) (vars : NoVars) (A : List SItem) : Prop :=
  OrderlyServer A ∧ A.filterMap SItem.op? = (A.filterMap commandOf).map answer ∧
  match vars with
  | .greeting => Beginning A
  | .running handles => handles = pending (ServerView.of gr A) ∧
      (ServerView.of gr A).finished ≤ (ServerView.of gr A).messages.length

theorem replies_other {A : List SItem} {i : SItem} (h : A.filterMap SItem.op? = (A.filterMap commandOf).map answer)
    (h1 : SItem.op? i = none) (h2 : commandOf i = none) :
    (A ++ [i]).filterMap SItem.op? = ((A ++ [i]).filterMap commandOf).map answer := by
  simp only [List.filterMap_append, List.filterMap_cons, h1, h2, h, List.map_append]
  rfl

theorem server_kept (hE : L.Exemplary) :
    ServerKept L g o gr (server L) (NoInv gr) (fun _ => False) where
  start := ⟨by intro S1 i S2 h; simp at h, rfl, Beginning.nil⟩
  silent {v A i B ops s} hI hi ht := by
    obtain ⟨h1, h2, h3⟩ := hI
    refine ⟨h1.snoc (SItem.silent_allowed hi _).1, ?_, ?_⟩
    · simp only [List.filterMap_append, h2, List.map_append]
      cases i <;> first | rfl | exact hi.elim
    · cases v with
      | greeting => exact Beginning.silent h3 hi ht
      | running handles =>
        obtain ⟨h3, h4⟩ := h3
        have hm := SItem.silent_handles hi ht
        have hg := Server.trace_guard ht
        show handles = pending (ServerView.of gr (A ++ [i])) ∧ _
        rw [ServerView.of_snoc]
        cases i with
        | quiet =>
          obtain ⟨-, m, h5, h6⟩ := hg
          have hlt := (List.getElem?_eq_some_iff.1 h5).1
          refine ⟨?_, hlt⟩
          rw [h3]
          unfold pending
          rw [show (ServerView.of gr A).messages.drop (ServerView.of gr A).finished =
            m :: (ServerView.of gr A).messages.drop ((ServerView.of gr A).finished + 1) from by
              rw [List.drop_eq_getElem_cons hlt]
              rw [List.getElem?_eq_getElem hlt] at h5
              cases h5
              rfl]
          cases m with
          | greeting => cases h6
          | response hd r =>
            cases hd with
            | some hd => cases h6
            | none => rfl
        | literal p rs =>
          refine ⟨?_, by simp only [ServerView.observe, List.length_append]; omega⟩
          rw [h3]
          unfold pending
          simp only [ServerView.observe]
          rw [List.drop_append_of_le_length h4, List.filterMap_append, List.self_eq_append_right, List.filterMap_eq_nil_iff]
          intro m hm'
          obtain ⟨r, rfl⟩ := hm m hm'
          rfl
        | failed e rs =>
          refine ⟨?_, by simp only [ServerView.observe, List.length_append]; omega⟩
          rw [h3]
          unfold pending
          simp only [ServerView.observe]
          rw [List.drop_append_of_le_length h4, List.filterMap_append, List.self_eq_append_right, List.filterMap_eq_nil_iff]
          intro m hm'
          obtain ⟨r, rfl⟩ := hm m hm'
          rfl
        | _ => first | exact hi.elim | exact ⟨h3, h4⟩
  event {v A i e ops s} coin hI hi ht := by
    obtain ⟨h1, h2, h3⟩ := hI
    have ho := h1.snoc (SItem.event_allowed hi (serverDialogue A))
    cases v with
    | greeting =>
      obtain ⟨rfl, rfl⟩ := Beginning.event h3 hi ht
      refine ⟨_, _, _, _, _, rfl, .nil s, fun _ => ⟨ho, replies_other h2 rfl rfl, ?_⟩, nofun⟩
      obtain ⟨h4, h5, h6, -⟩ := Beginning.view (gr := gr) h3
      show [] = pending (ServerView.of gr (A ++ [.sent (.greetingSent gr)])) ∧ _
      rw [ServerView.of_snoc]
      simp [pending, ServerView.observe, h4, h6]
    | running handles =>
      obtain ⟨h3, h4⟩ := h3
      rcases Server.event_cases hi ht with ⟨gr', rfl, rfl, h5⟩ | ⟨hd, r, rfl, rfl, h5⟩ | ⟨w, c, rfl, rfl, h5⟩ |
        ⟨w, d, rfl, rfl, h5⟩ | ⟨w, rfl, rfl, h5⟩
      · have hlt := (List.getElem?_eq_some_iff.1 h5).1
        refine ⟨_, _, _, _, _, rfl, .nil s, fun _ => ⟨ho, replies_other h2 rfl rfl, ?_⟩, nofun⟩
        show handles = pending (ServerView.of gr (A ++ [_])) ∧ _
        rw [ServerView.of_snoc]
        refine ⟨?_, hlt⟩
        rw [h3]
        unfold pending
        rw [List.drop_eq_getElem_cons hlt]
        rw [List.getElem?_eq_getElem hlt] at h5
        simp only [Option.some.injEq] at h5
        rw [h5]
        rfl
      · have hlt := (List.getElem?_eq_some_iff.1 h5).1
        have hh : handles = hd :: pending ((ServerView.of gr A).observe (.sent (.responseSent hd r))) := by
          rw [h3]
          unfold pending
          rw [List.drop_eq_getElem_cons hlt]
          rw [List.getElem?_eq_getElem hlt] at h5
          simp only [Option.some.injEq] at h5
          rw [h5]
          rfl
        refine ⟨.running handles.tail, s, [], .continue, [], by rw [hh]; simp [server], .nil s, fun _ => ⟨ho,
          replies_other h2 rfl rfl, ?_⟩, nofun⟩
        show handles.tail = pending (ServerView.of gr (A ++ [_])) ∧ _
        rw [ServerView.of_snoc]
        refine ⟨?_, hlt⟩
        rw [hh]
        rfl
      · have stay : ∀ {e}, (∀ c, e ≠ .commandReceived c) → (∀ hd r, e ≠ .responseSent hd r) →
            OrderlyServer (A ++ [.received w e]) →
            ∃ v' s' calls flow J, (server L).event (.running handles) s e coin = .ok (v', s', calls, flow) ∧
              s.Calls L calls s' J ∧ (flow = .continue → NoInv gr v' (A ++ .received w e :: J)) ∧ (flow = .abort → False) := by
          intro e he he' ho
          have hx : (server L).event (.running handles) s e coin = .ok (.running handles, s, [], .continue) := by
            cases e <;> first | rfl | exact (he _ rfl).elim | exact (he' _ _ rfl).elim
          refine ⟨_, _, _, _, _, hx, .nil s, fun _ => ⟨ho, ?_, ?_⟩, nofun⟩
          · have : commandOf (.received w e) = none := by
              cases e <;> first | rfl | exact (he _ rfl).elim
            exact replies_other h2 rfl this
          · show handles = pending (ServerView.of gr (A ++ [_])) ∧ _
            rw [ServerView.of_snoc]
            exact ⟨h3, h4⟩
        obtain ⟨tag, body⟩ := c
        cases body with
        | authenticate m ir => exact stay nofun nofun ho
        | idle => exact stay nofun nofun ho
        | other b =>
          show ∃ v' s' calls flow J, (server L).event (.running handles) s (.commandReceived ⟨tag, .other b⟩) coin =
            .ok (v', s', calls, flow) ∧ _
          simp only [server, status_ok hE .no tag (text := ascii "...") (by simp)]
          refine ⟨_, _, _, _, _, rfl, .enqueueStatus s _, fun _ => ?_, nofun⟩
          rw [List.append_cons A]
          refine ⟨ho.snoc ?_, ?_, ?_⟩
          · show tag ∈ (serverDialogue _).completed
            rw [serverDialogue_snoc]
            simp [ServerDialogue.observe, Command.event]
          · simp only [List.filterMap_append, h2, List.map_append, List.append_assoc]
            rfl
          · show handles ++ _ = pending (ServerView.of gr (_ ++ [_])) ∧ _
            rw [ServerView.of_snoc, ServerView.of_snoc]
            refine ⟨?_, by simp only [ServerView.observe, List.length_append]; omega⟩
            rw [h3]
            unfold pending
            simp only [ServerView.observe]
            rw [List.drop_append_of_le_length h4, List.filterMap_append]
            rfl
      · refine ⟨_, _, _, _, _, rfl, .nil s, fun _ => ⟨ho, replies_other h2 rfl rfl, ?_⟩, nofun⟩
        show handles = pending (ServerView.of gr (A ++ [_])) ∧ _
        rw [ServerView.of_snoc]
        exact ⟨h3, h4⟩
      · refine ⟨_, _, _, _, _, rfl, .nil s, fun _ => ⟨ho, replies_other h2 rfl rfl, ?_⟩, nofun⟩
        show handles = pending (ServerView.of gr (A ++ [_])) ∧ _
        rw [ServerView.of_snoc]
        exact ⟨h3, h4⟩
  line _ _ h := by cases h

/-! ## server_authenticate.rs -/

/-- The call is not about IDLE. -/
def _root_.ImapFlow.ServerOp.notIdle : ServerOp → Bool
  | .idleAccept _ | .idleReject _ => false
  | _ => true

/-- The dialogue is orderly and no call is about IDLE. -/
theorem notIdle_snoc {A : List SItem} {i : SItem} (h : OrderlyServer A ∧ ∀ op ∈ A.filterMap SItem.op?, op.notIdle = true)
    (h1 : (serverDialogue A).Allows i) (h2 : ∀ op, i.op? = some op → op.notIdle = true) :
    OrderlyServer (A ++ [i]) ∧ ∀ op ∈ (A ++ [i]).filterMap SItem.op?, op.notIdle = true := by
  refine ⟨h.1.snoc h1, fun op hop => ?_⟩
  rw [List.filterMap_append, List.mem_append] at hop
  rcases hop with hop | hop
  · exact h.2 op hop
  · obtain ⟨j, hj, hjo⟩ := List.mem_filterMap.1 hop
    rw [List.mem_singleton.1 hj] at hjo
    exact h2 op hjo

theorem silent_op {i : SItem} (h : i.Silent) : i.op? = none := by
  cases i <;> first | rfl | exact h.elim

theorem event_op {i : SItem} {e : ServerEvent} (h : i.event? = some e) : i.op? = none := by
  cases i <;> first | rfl | cases h

/-- What holds while `server_authenticate.rs` awaits an event. -/
def AuthServerInv (gr : Greeting) (vars : AuthServerVars) (A : List SItem) : Prop :=
  (OrderlyServer A ∧ ∀ op ∈ A.filterMap SItem.op?, op.notIdle = true) ∧
  match vars with
  | .greeting => Beginning A
  | .running current => (ServerView.of gr A).phase = .command ∨ (ServerView.of gr A).phase = .idlePending ∨
      ((ServerView.of gr A).phase = .authenticate ∧ (serverDialogue A).asked = 1 ∧
        ∃ tag, current = some tag ∧ (serverDialogue A).running = some tag)

theorem serverAuthenticate_kept (hL : L.Lawful) (hO : ServerOptions.Built L o) (hE : L.Exemplary) :
    ServerKept L g o gr (serverAuthenticate L) (AuthServerInv gr) (fun _ => False) where
  start := ⟨⟨by intro S1 i S2 h; simp at h, by simp⟩, Beginning.nil⟩
  silent {v A i B ops s} hI hi ht := by
    obtain ⟨h1, h2⟩ := hI
    refine ⟨notIdle_snoc h1 (SItem.silent_allowed hi _).1 (by rw [silent_op hi]; nofun), ?_⟩
    cases v with
    | greeting => exact Beginning.silent h2 hi ht
    | running current =>
      show (ServerView.of gr (A ++ [i])).phase = .command ∨ (ServerView.of gr (A ++ [i])).phase = .idlePending ∨
        ((ServerView.of gr (A ++ [i])).phase = .authenticate ∧ (serverDialogue (A ++ [i])).asked = 1 ∧
        ∃ tag, current = some tag ∧ (serverDialogue (A ++ [i])).running = some tag)
      rw [ServerView.of_snoc, serverDialogue_snoc, (SItem.silent_allowed hi _).2, SItem.silent_phase hi]
      exact h2
  event {v A i e ops s} coin hI hi ht := by
    obtain ⟨h1, h2⟩ := hI
    have ho := notIdle_snoc h1 (SItem.event_allowed hi (serverDialogue A)) (by rw [event_op hi]; nofun)
    cases v with
    | greeting =>
      obtain ⟨rfl, rfl⟩ := Beginning.event h2 hi ht
      refine ⟨_, _, _, _, _, rfl, .nil s, fun _ => ⟨ho, .inl ?_⟩, nofun⟩
      rw [ServerView.of_snoc]
      exact (Beginning.view (gr := gr) h2).2.2.2
    | running current =>
      have same : ∀ {J}, (ServerView.of gr (A ++ J)).phase = (ServerView.of gr A).phase →
          serverDialogue (A ++ J) = serverDialogue A →
          (OrderlyServer (A ++ J) ∧ ∀ op ∈ (A ++ J).filterMap SItem.op?, op.notIdle = true) →
          AuthServerInv gr (.running current) (A ++ J) := by
        intro J h3 h4 h5
        refine ⟨h5, ?_⟩
        show (ServerView.of gr (A ++ J)).phase = .command ∨ (ServerView.of gr (A ++ J)).phase = .idlePending ∨
          ((ServerView.of gr (A ++ J)).phase = .authenticate ∧ (serverDialogue (A ++ J)).asked = 1 ∧
          ∃ tag, current = some tag ∧ (serverDialogue (A ++ J)).running = some tag)
        rw [h3, h4]
        exact h2
      rcases Server.event_cases hi ht with ⟨gr', rfl, rfl, h5⟩ | ⟨hd, r, rfl, rfl, h5⟩ | ⟨w, c, rfl, rfl, h5⟩ |
        ⟨w, d, rfl, rfl, h5⟩ | ⟨w, rfl, rfl, h5⟩
      · exact ⟨_, _, _, _, _, rfl, .nil s, fun _ => same (by rw [ServerView.of_snoc]; rfl) (by rw [serverDialogue_snoc]; rfl) ho, nofun⟩
      · exact ⟨_, _, _, _, _, rfl, .nil s, fun _ => same (by rw [ServerView.of_snoc]; rfl) (by rw [serverDialogue_snoc]; rfl) ho, nofun⟩
      · obtain ⟨tag, body⟩ := c
        cases body with
        | authenticate m ir =>
          have hp : (ServerView.of gr (A ++ [.received w (Command.event ⟨tag, .authenticate m ir⟩)])).phase =
              .authenticate := by rw [ServerView.of_snoc]; rfl
          have hd0 : serverDialogue (A ++ [.received w (Command.event ⟨tag, .authenticate m ir⟩)]) =
              { serverDialogue A with running := some tag, asked := 0 } := by rw [serverDialogue_snoc]; rfl
          cases coin with
          | true =>
            obtain ⟨s', hd, h6, h7⟩ := Server.authContinue_ok ht hp (.basic none (ascii "I need more data..."))
            refine ⟨.running (some tag), s', [.authenticateContinue (.basic none (ascii "I need more data..."))], .continue, _,
              ?_, h7, fun _ => ?_, nofun⟩
            · simp only [serverAuthenticate, Command.event, if_true, request_ok hE (text := ascii "I need more data...") (by simp), h6, unwrap]
            · rw [List.append_cons]
              refine ⟨notIdle_snoc ho ?_ (by rintro op ⟨⟩; rfl), .inr (.inr ⟨?_, ?_, tag, rfl, ?_⟩)⟩
              · show (serverDialogue _).asked = 0
                rw [hd0]
              · rw [ServerView.of_snoc]; exact hp
              · rw [serverDialogue_snoc, hd0]; rfl
              · rw [serverDialogue_snoc, hd0]; rfl
          | false =>
            obtain ⟨s', hd, h6, h7⟩ := Server.authFinish_ok hL hO ht hp
              (.tagged tag { kind := .ok, code := none, text := ascii "Thanks, that's already enough!" })
            refine ⟨.running current, s', [.authenticateFinish
              (.tagged tag { kind := .ok, code := none, text := ascii "Thanks, that's already enough!" })], .continue, _,
              ?_, h7, fun _ => ?_, nofun⟩
            · simp only [serverAuthenticate, Command.event, Bool.false_eq_true, if_false,
                status_ok hE .ok tag (text := ascii "Thanks, that's already enough!") (by simp), h6, unwrap]
            · rw [List.append_cons]
              refine ⟨notIdle_snoc ho ?_ (by rintro op ⟨⟩; rfl), .inl ?_⟩
              · show (serverDialogue _).asked = 0 ∧ _
                rw [hd0]
                exact ⟨rfl, tag, _, rfl, rfl⟩
              · rw [ServerView.of_snoc]; rfl
        | idle =>
          refine ⟨_, _, _, _, _, rfl, .nil s, fun _ => ⟨ho, .inr (.inl ?_)⟩, nofun⟩
          rw [ServerView.of_snoc]; rfl
        | other b =>
          refine ⟨.running current, _, [.enqueueStatus
            (.tagged tag { kind := .no, code := none, text := ascii "Please use AUTHENTICATE" })], .continue, _, ?_,
            .enqueueStatus s _, fun _ => ?_, nofun⟩
          · simp only [serverAuthenticate, Command.event,
              status_ok hE .no tag (text := ascii "Please use AUTHENTICATE") (by simp)]
          · rw [List.append_cons]
            refine ⟨notIdle_snoc ho ?_ (by rintro op ⟨⟩; rfl), .inl ?_⟩
            · show tag ∈ (serverDialogue _).completed
              rw [serverDialogue_snoc]
              simp [ServerDialogue.observe, Command.event]
            · rw [ServerView.of_snoc, ServerView.of_snoc]
              exact h5
      · rcases h2 with h2 | h2 | ⟨-, h2, tag, rfl, h3⟩
        · rw [h5] at h2; cases h2
        · rw [h5] at h2; cases h2
        have hp : (ServerView.of gr (A ++ [.received w (.authenticateDataReceived d)])).phase = .authenticate := by
          rw [ServerView.of_snoc]; exact h5
        have hd0 : serverDialogue (A ++ [.received w (.authenticateDataReceived d)]) =
            { serverDialogue A with asked := 0 } := by
          rw [serverDialogue_snoc]
          show { serverDialogue A with asked := (serverDialogue A).asked - 1 } = _
          rw [h2]
        cases coin with
        | true =>
          obtain ⟨s', hd, h6, h7⟩ := Server.authContinue_ok ht hp (.basic none (ascii "...more..."))
          refine ⟨.running (some tag), s', [.authenticateContinue (.basic none (ascii "...more..."))], .continue, _,
            ?_, h7, fun _ => ?_, nofun⟩
          · simp only [serverAuthenticate, if_true, request_ok hE (text := ascii "...more...") (by simp), h6, unwrap]
          · rw [List.append_cons]
            refine ⟨notIdle_snoc ho ?_ (by rintro op ⟨⟩; rfl), .inr (.inr ⟨?_, ?_, tag, rfl, ?_⟩)⟩
            · show (serverDialogue _).asked = 0
              rw [hd0]
            · rw [ServerView.of_snoc]; exact hp
            · rw [serverDialogue_snoc, hd0]; rfl
            · rw [serverDialogue_snoc, hd0]; exact h3
        | false =>
          obtain ⟨s', hd, h6, h7⟩ := Server.authFinish_ok hL hO ht hp
            (.tagged tag { kind := .ok, code := none, text := ascii "Thanks!" })
          refine ⟨.running none, s', [.authenticateFinish
            (.tagged tag { kind := .ok, code := none, text := ascii "Thanks!" })], .continue, _, ?_, h7, fun _ => ?_, nofun⟩
          · simp only [serverAuthenticate, Bool.false_eq_true, if_false,
              status_ok hE .ok tag (text := ascii "Thanks!") (by simp), h6, unwrap]
          · rw [List.append_cons]
            refine ⟨notIdle_snoc ho ?_ (by rintro op ⟨⟩; rfl), .inl ?_⟩
            · show (serverDialogue _).asked = 0 ∧ _
              rw [hd0]
              exact ⟨rfl, tag, _, h3, rfl⟩
            · rw [ServerView.of_snoc]; rfl
      · rcases h2 with h2 | h2 | ⟨h2, -⟩ <;> rw [h5] at h2 <;> cases h2
  line _ _ h := by cases h

/-- After IDLE was reported and as long as the user does not answer it, nothing that was received is reported. -/
theorem _root_.ImapFlow.Server.stuck {A B : List SItem} {ops : List ServerOp} {s : Server} {w : Bytes} {tag : Tag}
    (h : (Server.new g o gr).trace L ops = .ok (s, A ++ .received w (.idleCommandReceived tag) :: B))
    (hn : ∀ op ∈ B.filterMap SItem.op?, op.notIdle = true) :
    (ServerView.of gr (A ++ .received w (.idleCommandReceived tag) :: B)).phase = .idlePending ∧
    ∀ e ∈ B.filterMap SItem.event?, e.isSent = true := by
  have key : ∀ C B', B = C ++ B' → (ServerView.of gr (A ++ .received w (.idleCommandReceived tag) :: C)).phase = .idlePending ∧
      ∀ e ∈ C.filterMap SItem.event?, e.isSent = true := by
    intro C
    induction C using snocInduction with
    | nil =>
      intro B' _
      refine ⟨?_, by simp⟩
      rw [ServerView.of_snoc]
      rfl
    | snoc C i ih =>
      intro B' hB
      obtain ⟨h1, h2⟩ := ih (i :: B') (by simp [hB])
      subst hB
      have hi := hn
      rw [show A ++ SItem.received w (.idleCommandReceived tag) :: (C ++ [i] ++ B') =
        (A ++ SItem.received w (.idleCommandReceived tag) :: C) ++ i :: B' from by simp] at h
      rw [show A ++ SItem.received w (.idleCommandReceived tag) :: (C ++ [i]) =
        (A ++ SItem.received w (.idleCommandReceived tag) :: C) ++ [i] from by simp, ServerView.of_snoc]
      have hop : ∀ op, i.op? = some op → op.notIdle = true := fun op ho =>
        hn op (List.mem_filterMap.2 ⟨i, by simp, ho⟩)
      have step : ((ServerView.of gr (A ++ SItem.received w (.idleCommandReceived tag) :: C)).observe i).phase = .idlePending ∧
          ∀ e, i.event? = some e → e.isSent = true := by
        cases hi : i.event? with
        | some e =>
          rcases Server.event_cases hi h with ⟨gr', rfl, rfl, h5⟩ | ⟨hd, r, rfl, rfl, h5⟩ | ⟨w, c, rfl, rfl, h5⟩ |
            ⟨w, d, rfl, rfl, h5⟩ | ⟨w, rfl, rfl, h5⟩
          · exact ⟨h1, by rintro e ⟨⟩; rfl⟩
          · exact ⟨h1, by rintro e ⟨⟩; rfl⟩
          · rw [h1] at h5; cases h5
          · rw [h1] at h5; cases h5
          · rw [h1] at h5; cases h5
        | none =>
          refine ⟨?_, nofun⟩
          have hg := Server.trace_guard h
          cases i with
          | idleAccept q r => cases hop _ rfl
          | idleReject q r => cases hop _ rfl
          | authContinue q r => cases r <;> exact h1
          | authFinish q r =>
            cases r with
            | error => exact h1
            | ok hd =>
              rcases hg with ⟨hp, -⟩ | ⟨-, hp⟩
              · rw [h1] at hp; cases hp
              · cases hp
          | _ => first | exact h1 | cases hi
      refine ⟨step.1, fun e he => ?_⟩
      rw [List.filterMap_append, List.mem_append] at he
      rcases he with he | he
      · exact h2 e he
      · obtain ⟨j, hj, hje⟩ := List.mem_filterMap.1 he
        rw [List.mem_singleton.1 hj] at hje
        exact step.2 e hje
  exact key B [] (by simp)

/-! ## server_idle.rs -/

/-- What holds while `server_idle.rs` awaits an event or a line. -/
def IdleServerInv (gr : Greeting) (vars : IdleServerVars) (A : List SItem) : Prop :=
  OrderlyServer A ∧
  match vars with
  | .greeting => Beginning A
  | .running current => (ServerView.of gr A).phase = .command ∨ (ServerView.of gr A).phase = .authenticate ∨
      (((ServerView.of gr A).phase = .idlePending ∨ (ServerView.of gr A).phase = .idle) ∧
        ∃ tag, current = some tag ∧ (serverDialogue A).running = some tag)

theorem serverIdle_kept (hL : L.Lawful) (hO : ServerOptions.Built L o) (hE : L.Exemplary) (expunge : Data) :
    ServerKept L g o gr (serverIdle L expunge) (IdleServerInv gr) (fun _ => False) where
  start := ⟨by intro S1 i S2 h; simp at h, Beginning.nil⟩
  silent {v A i B ops s} hI hi ht := by
    obtain ⟨h1, h2⟩ := hI
    refine ⟨h1.snoc (SItem.silent_allowed hi _).1, ?_⟩
    cases v with
    | greeting => exact Beginning.silent h2 hi ht
    | running current =>
      show (ServerView.of gr (A ++ [i])).phase = .command ∨ (ServerView.of gr (A ++ [i])).phase = .authenticate ∨
        (((ServerView.of gr (A ++ [i])).phase = .idlePending ∨ (ServerView.of gr (A ++ [i])).phase = .idle) ∧
        ∃ tag, current = some tag ∧ (serverDialogue (A ++ [i])).running = some tag)
      rw [ServerView.of_snoc, serverDialogue_snoc, (SItem.silent_allowed hi _).2, SItem.silent_phase hi]
      exact h2
  event {v A i e ops s} coin hI hi ht := by
    obtain ⟨h1, h2⟩ := hI
    have ho := h1.snoc (SItem.event_allowed hi (serverDialogue A))
    cases v with
    | greeting =>
      obtain ⟨rfl, rfl⟩ := Beginning.event h2 hi ht
      refine ⟨_, _, _, _, _, rfl, .nil s, fun _ => ⟨ho, .inl ?_⟩, nofun⟩
      rw [ServerView.of_snoc]
      exact (Beginning.view (gr := gr) h2).2.2.2
    | running current =>
      have same : ∀ {J}, (ServerView.of gr (A ++ J)).phase = (ServerView.of gr A).phase →
          (serverDialogue (A ++ J)).running = (serverDialogue A).running → OrderlyServer (A ++ J) →
          IdleServerInv gr (.running current) (A ++ J) := by
        intro J h3 h4 h5
        refine ⟨h5, ?_⟩
        show (ServerView.of gr (A ++ J)).phase = .command ∨ (ServerView.of gr (A ++ J)).phase = .authenticate ∨
          (((ServerView.of gr (A ++ J)).phase = .idlePending ∨ (ServerView.of gr (A ++ J)).phase = .idle) ∧
          ∃ tag, current = some tag ∧ (serverDialogue (A ++ J)).running = some tag)
        rw [h3, h4]
        exact h2
      rcases Server.event_cases hi ht with ⟨gr', rfl, rfl, h5⟩ | ⟨hd, r, rfl, rfl, h5⟩ | ⟨w, c, rfl, rfl, h5⟩ |
        ⟨w, d, rfl, rfl, h5⟩ | ⟨w, rfl, rfl, h5⟩
      · exact ⟨_, _, _, _, _, rfl, .nil s, fun _ => same (by rw [ServerView.of_snoc]; rfl) (by rw [serverDialogue_snoc]; rfl) ho, nofun⟩
      · exact ⟨_, _, _, _, _, rfl, .nil s, fun _ => same (by rw [ServerView.of_snoc]; rfl) (by rw [serverDialogue_snoc]; rfl) ho, nofun⟩
      · obtain ⟨tag, body⟩ := c
        cases body with
        | authenticate m ir =>
          refine ⟨_, _, _, _, _, rfl, .nil s, fun _ => ⟨ho, .inr (.inl ?_)⟩, nofun⟩
          rw [ServerView.of_snoc]; rfl
        | idle =>
          refine ⟨_, _, _, _, _, rfl, .nil s, fun _ => ⟨ho, .inr (.inr ⟨.inl ?_, tag, rfl, ?_⟩)⟩, nofun⟩
          · rw [ServerView.of_snoc]; rfl
          · rw [serverDialogue_snoc]; rfl
        | other b =>
          refine ⟨_, _, _, _, _, rfl, .nil s, fun _ => ⟨ho, .inl ?_⟩, nofun⟩
          rw [ServerView.of_snoc]; exact h5
      · refine ⟨_, _, _, _, _, rfl, .nil s, fun _ => ⟨ho, .inr (.inl ?_)⟩, nofun⟩
        rw [ServerView.of_snoc]; exact h5
      · rcases h2 with h2 | h2 | ⟨-, tag, rfl, h3⟩
        · rw [h5] at h2; cases h2
        · rw [h5] at h2; cases h2
        refine ⟨.running none, _, [.enqueueStatus (.tagged tag { kind := .ok, code := none, text := ascii "..." })], .continue, _,
          ?_, .enqueueStatus s _, fun _ => ?_, nofun⟩
        · simp only [serverIdle, status_ok hE .ok tag (text := ascii "...") (by simp)]
        · rw [List.append_cons]
          refine ⟨ho.snoc ?_, .inl ?_⟩
          · show tag ∈ (serverDialogue _).completed
            rw [serverDialogue_snoc]
            simp [ServerDialogue.observe, h3]
          · rw [ServerView.of_snoc, ServerView.of_snoc]; rfl
  line {v A ops s text x} hI ht hx := by
    cases v with
    | greeting => cases hx
    | running current =>
      have hI0 := hI
      obtain ⟨h1, h2⟩ := hI
      simp only [serverIdle, Option.some.injEq] at hx
      subst hx
      have refused : ∀ {J : SItem}, (ServerView.of gr A).observe J = { ServerView.of gr A with quiet := false } →
          (serverDialogue A).observe J = serverDialogue A → (serverDialogue A).Allows J →
          IdleServerInv gr (.running current) (A ++ [J]) := by
        intro J h3 h4 h5
        refine ⟨h1.snoc h5, ?_⟩
        show (ServerView.of gr (A ++ [J])).phase = .command ∨ (ServerView.of gr (A ++ [J])).phase = .authenticate ∨
          (((ServerView.of gr (A ++ [J])).phase = .idlePending ∨ (ServerView.of gr (A ++ [J])).phase = .idle) ∧
          ∃ tag, current = some tag ∧ (serverDialogue (A ++ [J])).running = some tag)
        rw [ServerView.of_snoc, serverDialogue_snoc, h3, h4]
        exact h2
      split
      · rw [request_ok hE (text := ascii "...") (by simp)]
        obtain ⟨s', r, h3, h4, h5⟩ := Server.idleAccept_any hL hO ht (.basic none (ascii "..."))
        refine ⟨.running current, s', [.idleAccept (.basic none (ascii "..."))], _, ?_, h4, ?_⟩
        · simp only [h3]
        · rcases h5 with ⟨hp, hd, rfl⟩ | ⟨-, rfl⟩
          · rcases h2 with h2 | h2 | ⟨-, h2⟩
            · rw [hp] at h2; cases h2
            · rw [hp] at h2; cases h2
            refine ⟨h1.snoc trivial, .inr (.inr ⟨.inr ?_, ?_⟩)⟩
            · rw [ServerView.of_snoc]; rfl
            · rw [serverDialogue_snoc]; exact h2
          · exact refused rfl rfl trivial
      · split
        · cases current with
          | none => exact ⟨_, _, _, _, rfl, .nil s, by simpa using hI0⟩
          | some tag =>
            simp only [status_ok hE .no tag (text := ascii "...") (by simp)]
            obtain ⟨s', r, h3, h4, h5⟩ := Server.idleReject_any hL hO ht (.tagged tag { kind := .no, code := none, text := ascii "..." })
            refine ⟨.running (some tag), s', [.idleReject (.tagged tag { kind := .no, code := none, text := ascii "..." })], _, ?_,
              h4, ?_⟩
            · simp only [h3]
            · rcases h5 with ⟨hp, hd, rfl⟩ | ⟨-, rfl⟩
              · rcases h2 with h2 | h2 | ⟨-, t, ht, h2⟩
                · rw [hp] at h2; cases h2
                · rw [hp] at h2; cases h2
                cases ht
                refine ⟨h1.snoc ⟨tag, _, h2, rfl⟩, .inl ?_⟩
                rw [ServerView.of_snoc]; rfl
              · exact refused rfl rfl trivial
        · split
          · refine ⟨_, _, _, _, rfl, .enqueueData s expunge, h1.snoc trivial, ?_⟩
            show (ServerView.of gr (A ++ [_])).phase = .command ∨ (ServerView.of gr (A ++ [_])).phase = .authenticate ∨
              (((ServerView.of gr (A ++ [_])).phase = .idlePending ∨ (ServerView.of gr (A ++ [_])).phase = .idle) ∧
              ∃ tag, current = some tag ∧ (serverDialogue (A ++ [_])).running = some tag)
            rw [ServerView.of_snoc, serverDialogue_snoc]
            exact h2
          · exact ⟨_, _, _, _, rfl, .nil s, by simpa using hI0⟩

end Examples

/-! ## Runs -/

/-- The texts of the greetings. -/
theorem Examples.startServer_ok {K σ : Type} (hL : L.Lawful) (hE : L.Exemplary) (g : HandleGenerator)
    (P : Program σ Server ServerEvent ServerOp) {text : Text} (ht : text ∈ [serverText, serverIdleText]) :
    ∃ o, ServerOptions.default L = .ok o ∧ startServer (K := K) L P g text =
      .ok (.running P.start (.insecure (Server.new g o { kind := .ok, code := none, text }))) := by
  obtain ⟨o, ho⟩ := C08_default_options hL
  refine ⟨o, ho, ?_⟩
  have : L.textValid text = true := hE.texts text (by
    simp only [List.mem_cons, List.not_mem_nil, or_false] at ht
    rcases ht with rfl | rfl <;> simp)
  simp [startServer, ho, this]

/-- What an invariant says about a run from the start. -/
theorem ServerKept.runs {K σ : Type} (hL : L.Lawful) (hE : L.Exemplary) {g : HandleGenerator}
    {P : Program σ Server ServerEvent ServerOp} {text : Text} (ht : text ∈ [Examples.serverText, Examples.serverIdleText])
    {I : σ → List SItem → Prop} {Q : List SItem → Prop}
    (hk : ∀ {o}, ServerOptions.Built L o → ServerKept L g o { kind := .ok, code := none, text } P I Q)
    {x : Running K σ Server} {T : List (ProgramItem ServerError ServerEvent ServerOp)} (h : ServerRuns L g text P x T) :
    ∃ o s A, ServerOptions.default L = .ok o ∧
      ServerKept.At L g o { kind := .ok, code := none, text } I Q T x s A ∧ x.Stands T ∧
      GreetingSentFirst { kind := .ok, code := none, text } (programEvents T) := by
  obtain ⟨x0, as, h0, h⟩ := h
  obtain ⟨o, ho, h1⟩ := Examples.startServer_ok (K := K) hL hE g P ht
  rw [h1] at h0
  cases h0
  have hb := ServerOptions.Built.default ho
  have h2 : ServerKept.At (K := K) L g o { kind := .ok, code := none, text } I Q []
      (.running P.start (.insecure (Server.new g o { kind := .ok, code := none, text })))
      (Server.new g o { kind := .ok, code := none, text }) [] := ⟨rfl, rfl, rfl, rfl, (hk hb).start⟩
  obtain ⟨s, A, h3, h4⟩ := ServerKept.run hL hb (hk hb) h2 nofun h
  refine ⟨o, s, A, ho, h3, h4, ?_⟩
  rw [← h3.events]
  exact (Server.greeting_first (B := []) (by simpa using h3.trace)).2.2

/-- After IDLE was reported, a program that does not answer it gets nothing but reports of what was sent. -/
theorem Server.stuck_events {A : List SItem} {ops : List ServerOp} {s : Server} (h : (Server.new g o gr).trace L ops = .ok (s, A))
    (hn : ∀ op ∈ A.filterMap SItem.op?, op.notIdle = true) {es1 es2 : List ServerEvent} {tag : Tag}
    (he : A.filterMap SItem.event? = es1 ++ .idleCommandReceived tag :: es2) : ∀ e ∈ es2, e.isSent = true := by
  obtain ⟨A1, A2, rfl, h1, h2⟩ := List.filterMap_eq_append_iff.1 he
  obtain ⟨A3, i, A4, rfl, h3, h4, h5⟩ := List.filterMap_eq_cons_iff.1 h2
  rw [← List.append_assoc] at h
  rcases Server.event_cases h4 h with ⟨gr', hx, -⟩ | ⟨hd, r, hx, -⟩ | ⟨w, c, hx, rfl, h6⟩ | ⟨w, d, hx, -⟩ | ⟨w, hx, -⟩
  · cases hx
  · cases hx
  · rw [← h5]
    refine (Server.stuck h fun op hop => hn op ?_).2
    rw [List.filterMap_append, List.filterMap_append, List.filterMap_cons]
    simp only [SItem.op?]
    simp [hop]
  · cases hx
  · cases hx

end ImapFlow
