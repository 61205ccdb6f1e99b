import Verif.Proofs.Dialogue

/-!
# Dialogues: client and server on a network

`Together` holds at every moment of a run of the system.
-/

namespace ImapFlow

variable {L : Lib} {gc gs : HandleGenerator} {oc : ClientOptions} {os : ServerOptions} {gr : Greeting} {n : Net}
  {T : List NItem} {A A' : List CItem} {S S' : List SItem} {D : List ServerEvent} {fl : Option Underway}

/-! ## The messages of the server with their meaning -/

/-- The messages enqueued in a step, with their meaning for the client. -/
def SItem.log : SItem → List (ServerMessage × Option Underway)
  | .enqueue h r => [(.response (some h) r, none)]
  | .authContinue q (.ok h) => [(.response (some h) (.continuationRequest q), some (.answer (.authenticateContinue q)))]
  | .authFinish st (.ok h) => [(.response (some h) (.status st), some (.answer (.authenticateFinish st)))]
  | .idleAccept q (.ok h) => [(.response (some h) (.continuationRequest q), some (.answer (.idleAccept q)))]
  | .idleReject st (.ok h) => [(.response (some h) (.status st), some (.answer (.idleReject st)))]
  | .literal _ rs => rs.map fun m => (m, some .literal)
  | .failed _ rs => rs.map fun m => (m, some .literal)
  | _ => []

/-- All messages of the server with their meaning. -/
def serverLog (gr : Greeting) (S : List SItem) : List (ServerMessage × Option Underway) :=
  (.greeting gr, none) :: S.flatMap SItem.log

theorem serverLog_snoc (S : List SItem) (i : SItem) : serverLog gr (S ++ [i]) = serverLog gr S ++ i.log := by
  simp [serverLog]

theorem SItem.log_messages (i : SItem) : i.log.map Prod.fst = i.enqueues := by
  cases i with
  | authContinue q r => cases r <;> rfl
  | authFinish q r => cases r <;> rfl
  | idleAccept q r => cases r <;> rfl
  | idleReject q r => cases r <;> rfl
  | literal p rs => simp [SItem.log, SItem.enqueues, Function.comp_def]
  | failed p rs => simp [SItem.log, SItem.enqueues, Function.comp_def]
  | _ => rfl

theorem serverLog_messages (S : List SItem) : (serverLog gr S).map Prod.fst = serverMessages gr S := by
  simp only [serverLog, serverMessages, List.map_cons, List.map_flatMap, SItem.log_messages]

/-- The response of an answer. -/
def Answer.response : Answer → Response
  | .authenticateContinue q => .continuationRequest q
  | .authenticateFinish st => .status st
  | .idleAccept q => .continuationRequest q
  | .idleReject st => .status st

theorem mem_serverLog {m : ServerMessage} {o : Option Underway} (h : (m, o) ∈ serverLog gr S) :
    (m = .greeting gr ∧ o = none) ∨ ∃ S1 i S2, S = S1 ++ i :: S2 ∧ (m, o) ∈ i.log := by
  simp only [serverLog, List.mem_cons, Prod.mk.injEq] at h
  rcases h with h | h
  · exact .inl h
  · obtain ⟨i, hi, hm⟩ := List.mem_flatMap.mp h
    obtain ⟨S1, S2, hS⟩ := List.append_of_mem hi
    exact .inr ⟨S1, i, S2, hS, hm⟩

theorem serverLog_plain {m : ServerMessage} (h : (m, none) ∈ serverLog gr S) :
    m = .greeting gr ∨ ∃ S1 hd r S2, S = S1 ++ .enqueue hd r :: S2 ∧ m = .response (some hd) r := by
  rcases mem_serverLog h with ⟨h, -⟩ | ⟨S1, i, S2, hS, hm⟩
  · exact .inl h
  · right
    cases i with
    | enqueue hd r =>
      simp only [SItem.log, List.mem_singleton, Prod.mk.injEq] at hm
      exact ⟨S1, hd, r, S2, hS, hm.1⟩
    | authContinue q r => cases r <;> simp [SItem.log] at hm
    | authFinish q r => cases r <;> simp [SItem.log] at hm
    | idleAccept q r => cases r <;> simp [SItem.log] at hm
    | idleReject q r => cases r <;> simp [SItem.log] at hm
    | literal p rs => simp [SItem.log] at hm
    | failed p rs => simp [SItem.log] at hm
    | _ => simp [SItem.log] at hm

theorem serverLog_answer {m : ServerMessage} {a : Answer} (h : (m, some (.answer a)) ∈ serverLog gr S) :
    m.content = .response a.response := by
  rcases mem_serverLog h with ⟨-, h⟩ | ⟨S1, i, S2, hS, hm⟩
  · cases h
  · cases i with
    | authContinue q r =>
      cases r with
      | error _ => simp [SItem.log] at hm
      | ok hd => simp only [SItem.log, List.mem_singleton, Prod.mk.injEq] at hm; obtain ⟨rfl, hm⟩ := hm; cases hm; rfl
    | authFinish q r =>
      cases r with
      | error _ => simp [SItem.log] at hm
      | ok hd => simp only [SItem.log, List.mem_singleton, Prod.mk.injEq] at hm; obtain ⟨rfl, hm⟩ := hm; cases hm; rfl
    | idleAccept q r =>
      cases r with
      | error _ => simp [SItem.log] at hm
      | ok hd => simp only [SItem.log, List.mem_singleton, Prod.mk.injEq] at hm; obtain ⟨rfl, hm⟩ := hm; cases hm; rfl
    | idleReject q r =>
      cases r with
      | error _ => simp [SItem.log] at hm
      | ok hd => simp only [SItem.log, List.mem_singleton, Prod.mk.injEq] at hm; obtain ⟨rfl, hm⟩ := hm; cases hm; rfl
    | literal p rs => simp [SItem.log] at hm
    | failed p rs => simp [SItem.log] at hm
    | _ => simp [SItem.log] at hm

theorem serverLog_literal (hO : ServerOptions.Built L os) {ops : List ServerOp} {s : Server}
    (hs : (Server.new gs os gr).trace L ops = .ok (s, S ++ S')) (hf : ∀ e rs, .failed e rs ∉ S)
    {m : ServerMessage} (h : (m, some .literal) ∈ serverLog gr S) :
    m = .response none (.continuationRequest os.literalAcceptCcr) := by
  rcases mem_serverLog h with ⟨-, h⟩ | ⟨S1, i, S2, hS, hm⟩
  · cases h
  · cases i with
    | authContinue q r => cases r <;> simp [SItem.log] at hm
    | authFinish q r => cases r <;> simp [SItem.log] at hm
    | idleAccept q r => cases r <;> simp [SItem.log] at hm
    | idleReject q r => cases r <;> simp [SItem.log] at hm
    | failed p rs => exact (hf p rs (by rw [hS]; simp)).elim
    | literal p rs =>
      rw [hS, List.append_assoc] at hs
      obtain ⟨-, -, -, tag, k, mode, -, -, -, hrs⟩ := C21_server_literal hO hs
      simp only [SItem.log, List.mem_map, Prod.mk.injEq] at hm
      obtain ⟨m', hm, rfl, -⟩ := hm
      rw [hrs] at hm
      cases mode with
      | sync => exact List.mem_singleton.mp hm
      | nonSync => cases hm
    | _ => simp [SItem.log] at hm

/-! ## The bookkeeping of the user of the server -/

theorem serverDialogue_snoc (S : List SItem) (i : SItem) : serverDialogue (S ++ [i]) = (serverDialogue S).observe i := by
  simp [serverDialogue]

theorem ServerDialogue.completed_mono {d : ServerDialogue} {i : SItem} {t : Tag} (h : t ∈ d.completed) :
    t ∈ (d.observe i).completed := by
  cases i with
  | received w e =>
    cases e with
    | commandReceived c => exact List.mem_append_left _ h
    | idleDoneReceived => exact List.mem_append_left _ h
    | _ => exact h
  | authContinue q r => cases r <;> exact h
  | authFinish q r => cases r <;> exact h
  | idleAccept q r => cases r <;> exact h
  | idleReject q r => cases r <;> exact h
  | _ => exact h

theorem serverDialogue_mono {t : Tag} (h : t ∈ (serverDialogue S).completed) :
    t ∈ (serverDialogue (S ++ S')).completed := by
  induction S' using snocInduction with
  | nil => rw [List.append_nil]; exact h
  | snoc S' i ih =>
    rw [← List.append_assoc, serverDialogue_snoc]
    exact ServerDialogue.completed_mono ih

theorem OrderlyServer.prefix (h : OrderlyServer (S ++ S')) : OrderlyServer S := by
  intro S1 i S2 hS
  exact h S1 i (S2 ++ S') (by rw [hS]; simp)

/-! ## What was said is understood -/

/-- The message is decoded to itself. -/
def Sane (L : Lib) (os : ServerOptions) (e : ServerEvent) : Prop :=
  (∃ c : Command, e = c.event ∧ c.RoundTrip L os ∧ c.Fits L os) ∨
  (∃ a : AuthenticateData, e = .authenticateDataReceived a ∧ a.RoundTrip L os) ∨
  (e = .idleDoneReceived ∧ DoneRoundTrip L os)

theorem Command.event_inj {c c' : Command} (h : c.event = c'.event) : c = c' := by
  obtain ⟨tag, body⟩ := c
  obtain ⟨tag', body'⟩ := c'
  cases body <;> cases body' <;> simp [Command.event] at h
  · obtain ⟨rfl, rfl, rfl⟩ := h; rfl
  · rw [h]
  · rw [Command.mk.injEq]; simp [h]

theorem Command.event_not_data {c : Command} {a : AuthenticateData} (h : c.event = .authenticateDataReceived a) : False := by
  obtain ⟨tag, body⟩ := c
  cases body <;> simp [Command.event] at h

theorem Command.event_not_done {c : Command} (h : c.event = .idleDoneReceived) : False := by
  obtain ⟨tag, body⟩ := c
  cases body <;> simp [Command.event] at h

theorem Sane.taken {e : ServerEvent} {p : ServerPhase} (h : Sane L os e) (hp : Sayable p e) :
    Taken L os p (e.bytes L) e ∧ (e.bytes L).length ≤ os.maxCommandSize := by
  rcases hp with ⟨rfl, c, rfl⟩ | ⟨rfl, a, rfl⟩ | ⟨rfl, rfl⟩
  · rcases h with ⟨c', hc, h1, h2⟩ | ⟨a, ha, -⟩ | ⟨ha, -⟩
    · rw [← Command.event_inj hc] at h1 h2
      rw [Command.event_bytes]
      exact ⟨⟨c, Command.message h1 h2, rfl⟩, h2.1⟩
    · exact (Command.event_not_data ha).elim
    · exact (Command.event_not_done ha).elim
  · rcases h with ⟨c', hc, -⟩ | ⟨a', ha, h1⟩ | ⟨ha, -⟩
    · exact (Command.event_not_data hc.symm).elim
    · cases ha
      exact ⟨⟨a, h1.1, rfl⟩, h1.2⟩
    · cases ha
  · rcases h with ⟨c', hc, -⟩ | ⟨a', ha, h1⟩ | ⟨-, h1⟩
    · exact (Command.event_not_done hc.symm).elim
    · cases ha
    · exact ⟨⟨h1.1, rfl⟩, h1.2⟩

/-- The data of the view were supplied by the user. -/
theorem ClientView.datas_supplied (A : List CItem) :
    (∀ a ∈ (ClientView.of A).datas, a ∈ A.filterMap CItem.data?) ∧
    ∀ en ∈ (ClientView.of A).ended, ∀ a ∈ en.datas, a ∈ A.filterMap CItem.data? := by
  induction A using snocInduction with
  | nil =>
    exact ⟨fun a ha => absurd ha (List.not_mem_nil (a := a)), fun en hen => absurd hen (List.not_mem_nil (a := en))⟩
  | snoc A i ih =>
    obtain ⟨h1, h2⟩ := ih
    have up : ∀ a, a ∈ A.filterMap CItem.data? → a ∈ (A ++ [i]).filterMap CItem.data? := by
      intro a ha
      rw [List.filterMap_append]
      exact List.mem_append_left _ ha
    have same : (ClientView.of (A ++ [i])).datas = (ClientView.of A).datas →
        (ClientView.of (A ++ [i])).ended = (ClientView.of A).ended →
        (∀ a ∈ (ClientView.of (A ++ [i])).datas, a ∈ (A ++ [i]).filterMap CItem.data?) ∧
        ∀ en ∈ (ClientView.of (A ++ [i])).ended, ∀ a ∈ en.datas, a ∈ (A ++ [i]).filterMap CItem.data? := by
      intro e1 e2
      rw [e1, e2]
      exact ⟨fun a ha => up a (h1 a ha), fun en hen a ha => up a (h2 en hen a ha)⟩
    have event : ∀ e (v : ClientView), v.datas = (ClientView.of A).datas → v.ended = (ClientView.of A).ended →
        ClientView.of (A ++ [i]) = v.event e →
        (∀ a ∈ (ClientView.of (A ++ [i])).datas, a ∈ (A ++ [i]).filterMap CItem.data?) ∧
        ∀ en ∈ (ClientView.of (A ++ [i])).ended, ∀ a ∈ en.datas, a ∈ (A ++ [i]).filterMap CItem.data? := by
      intro e v hv1 hv2 he
      cases ht : e.isTerminal with
      | true =>
        have he : ClientView.of (A ++ [i]) = v.terminate e := he.trans (if_pos ht)
        rw [he]
        refine ⟨fun a ha => absurd ha (List.not_mem_nil (a := a)), ?_⟩
        intro en hen a ha
        rcases List.mem_append.mp (show en ∈ v.ended ++ [⟨e, v.sent, v.datas⟩] from hen) with hen | hen
        · rw [hv2] at hen; exact up a (h2 en hen a ha)
        · rw [List.mem_singleton.mp hen] at ha
          have ha : a ∈ v.datas := ha
          rw [hv1] at ha
          exact up a (h1 a ha)
      | false =>
        refine same ?_ ?_
        · rw [he, ← hv1]
          cases e <;> first | rfl | cases ht
        · rw [he, ← hv2]
          cases e <;> first | rfl | cases ht
    have hsnoc := ClientView.of_snoc A i
    cases i with
    | setAuth a r =>
      cases r with
      | error _ => exact same (by rw [hsnoc]; rfl) (by rw [hsnoc]; rfl)
      | ok hd =>
        rw [hsnoc]
        refine ⟨?_, fun en hen a ha => up a (h2 en hen a ha)⟩
        intro a' ha'
        rcases List.mem_append.mp (show a' ∈ (ClientView.of A).datas ++ [a] from ha') with h | h
        · exact up a' (h1 a' h)
        · rw [List.filterMap_append, List.mem_singleton.mp h]
          exact List.mem_append_right _ (by simp [CItem.data?])
    | setDone r => cases r <;> exact same (by rw [hsnoc]; rfl) (by rw [hsnoc]; rfl)
    | sent e => exact event e _ rfl rfl hsnoc
    | received w e => exact event e { ClientView.of A with consumed := (ClientView.of A).consumed ++ w } rfl rfl hsnoc
    | _ => exact same (by rw [hsnoc]; rfl) (by rw [hsnoc]; rfl)

theorem FairClient.sane (hF : FairClient L os (A ++ A')) : ∀ e ∈ (ClientView.of A).said, Sane L os e := by
  have hen := (ClientView.of_fields A).2.2.1
  obtain ⟨hd1, hd2⟩ := ClientView.datas_supplied A
  have cmd : ∀ x ∈ (ClientView.of A).enqueued, Sane L os x.2.event := by
    intro x hx
    have : x ∈ clientEnqueued (A ++ A') := by
      rw [clientEnqueued_append, ← hen]; exact List.mem_append_left _ hx
    exact .inl ⟨x.2, rfl, hF.commands.roundTrip x this, hF.commands.fits x this⟩
  have data : ∀ a ∈ A.filterMap CItem.data?, Sane L os (.authenticateDataReceived a) := by
    intro a ha
    refine .inr (.inl ⟨a, rfl, hF.datas a ?_⟩)
    rw [List.filterMap_append]
    exact List.mem_append_left _ ha
  have done : Sane L os .idleDoneReceived := .inr (.inr ⟨rfl, hF.done⟩)
  intro e he
  rcases List.mem_append.mp he with he | he
  · obtain ⟨⟨x, en⟩, hm, he⟩ := List.mem_flatMap.mp he
    obtain ⟨hx, hen'⟩ := List.of_mem_zip hm
    simp only [saidEnded, List.cons_append, List.mem_cons, List.mem_append, List.mem_map] at he
    rcases he with rfl | ⟨a, ha, rfl⟩ | he
    · exact cmd x hx
    · exact data a (hd2 en hen' a ha)
    · split at he
      · rw [List.mem_singleton.mp he]; exact done
      · cases he
  · split at he
    · rename_i x hc
      obtain ⟨q, hq⟩ := ClientView.remaining_of_current hc
      have hx : x ∈ (ClientView.of A).enqueued := List.mem_of_mem_drop (by
        show x ∈ (ClientView.of A).remaining; rw [hq]; simp)
      simp only [ClientView.saidNow, List.cons_append, List.mem_cons, List.mem_append, List.mem_map] at he
      rcases he with rfl | ⟨a, ha, rfl⟩ | he
      · exact cmd x hx
      · exact data a (hd1 a ha)
      · split at he
        · rw [List.mem_singleton.mp he]; exact done
        · cases he
    · cases he

/-- What was handed out is a beginning of what was said. -/
theorem Now.said_prefix {v : ClientView} (h : Now L v) : said L v.saidBefore ++ v.sent <+: said L v.said := by
  cases hc : v.current with
  | none =>
    rw [ClientView.said_none hc, (h.of_none hc).1, List.append_nil]
    exact List.prefix_rfl
  | some x =>
    obtain ⟨y, q, -, hy, hp⟩ := h.output (ClientView.current_sent hc)
    rw [hc] at hy
    cases hy
    rw [ClientView.said_some hc, said_append]
    exact (List.prefix_append_right_inj _).mpr hp

/-- When an answer is on its way, the server has heard everything. -/
theorem Core.answer_nothing {v : ClientView} {H : List ServerEvent} {p : ServerPhase} {d : ServerDialogue} {m : Nat}
    {a : Answer} (h : Core L v H p d m D (some (.answer a))) : D = [] := by
  have hj := h.joint
  generalize hf : some (Underway.answer a) = f at hj
  cases hj <;> first | rfl | (cases hf)

/-! ## The invariant -/

/-- The event is not a complaint. -/
def CItem.Expected : CItem → Prop
  | .received _ (.commandRejected ..) => False
  | .received _ (.continuationRequestReceived _) => False
  | .failed _ => False
  | _ => True

/-- Client and server fit together. -/
structure Together (L : Lib) (os : ServerOptions) (gr : Greeting) (A : List CItem) (S : List SItem)
    (D : List ServerEvent) (fl : Option Underway) : Prop where
  core : Core L (ClientView.of A) (serverHeard S) (serverPhase S) (serverDialogue S) (accepts L os S) D fl
  output : clientOutput A = said L (ClientView.of A).saidBefore ++ (ClientView.of A).sent
  taken : serverTaken S = said L (serverHeard S)
  accepted : ∀ e rs, .failed e rs ∉ S
  flight : ((serverLog gr S).drop (clientDecoded L A).length).filterMap Prod.snd = fl.toList
  answers : serverAnswers S = clientAnswers A ++ flightAnswers fl
  expected : ∀ i ∈ A, i.Expected

/-- The input of the server is a beginning of what it has not heard. -/
theorem Together.unread (h : Together L os gr A S D fl) (hn : Now L (ClientView.of A)) {s : Server} {o : ServerOptions}
    (hinv : s.Inv L o (ServerView.of gr S)) (hg : serverGiven S <+: clientOutput A) : serverUnread S <+: said L D := by
  rw [Server.given_eq hinv, h.taken, h.output] at hg
  have := hg.trans hn.said_prefix
  rw [h.core.said, said_append] at this
  exact (List.prefix_append_right_inj _).mp this

/-! ## Steps of the server -/

theorem serverHeard_snoc (S : List SItem) (i : SItem) : serverHeard (S ++ [i]) = serverHeard S ++ i.heard?.toList := by
  unfold serverHeard
  rw [List.filterMap_append]
  cases h : i.heard? <;> simp [h]

theorem serverAnswers_snoc (S : List SItem) (i : SItem) : serverAnswers (S ++ [i]) = serverAnswers S ++ i.answer?.toList := by
  unfold serverAnswers
  rw [List.filterMap_append]
  cases h : i.answer? <;> simp [h]

theorem clientAnswers_snoc (A : List CItem) (i : CItem) : clientAnswers (A ++ [i]) = clientAnswers A ++ i.answer?.toList := by
  unfold clientAnswers
  rw [List.filterMap_append]
  cases h : i.answer? <;> simp [h]

theorem accepts_snoc (S : List SItem) (i : SItem) : accepts L os (S ++ [i]) =
    match i with
    | .literal p _ => accepts L os S + (answerOf L os p).length
    | .received .. | .failed .. => 0
    | _ => accepts L os S := by
  unfold accepts
  rw [Server.serverLiterals_snoc]
  cases i <;> simp

theorem Together.server {sops : List ServerOp} {s : Server} {i : SItem} {fl : Option Underway}
    (h : Together L os gr A S D fl) (hn : Now L (ClientView.of A)) (hL : L.Lawful)
    (hO : ServerOptions.Built L os) (hmax : 0 < os.maxCommandSize) (hF : FairClient L os (A ++ A'))
    (hst : (Server.new gs os gr).trace L sops = .ok (s, S ++ i :: S')) (hP : OrderlyServer (S ++ i :: S'))
    (hlen : (clientDecoded L A).length ≤ (serverMessages gr S).length)
    (hg : serverGiven S <+: clientOutput A) : ∃ D' fl', Together L os gr A (S ++ [i]) D' fl' := by
  obtain ⟨s1, hinv⟩ := Server.prefix_inv hst
  have hguard := Server.trace_guard hst
  have hallow := hP S i S' rfl
  have hun := h.unread hn hinv hg
  have hphase := ServerView.of_phase gr S
  rw [← serverLog_messages, List.length_map] at hlen
  have hsane := hF.sane
  rw [h.core.said] at hsane
  have hsane : ∀ e ∈ D, Sane L os e := fun e he => hsane e (List.mem_append_right _ he)
  have quiet : i.heard? = none → i.answer? = none → i.taken = [] → i.log.filterMap Prod.snd = [] →
      (∀ e rs, i ≠ .failed e rs) → serverPhase (S ++ [i]) = serverPhase S → (serverDialogue S).observe i = serverDialogue S →
      accepts L os (S ++ [i]) = accepts L os S → ∃ D' fl', Together L os gr A (S ++ [i]) D' fl' := by
    intro h1 h2 h3 h4 h5 h6 h7 h8
    refine ⟨D, fl, ?_, h.output, ?_, ?_, ?_, ?_, h.expected⟩
    · rw [serverHeard_snoc, h1, h6, serverDialogue_snoc, h7, h8]
      simpa using h.core
    · rw [serverTaken_append, serverHeard_snoc, h1, h.taken]
      simp [serverTaken, h3]
    · intro e rs hm
      rcases List.mem_append.mp hm with hm | hm
      · exact h.accepted e rs hm
      · exact h5 e rs (List.mem_singleton.mp hm).symm
    · rw [serverLog_snoc, List.drop_append_of_le_length hlen, List.filterMap_append, h.flight, h4, List.append_nil]
    · rw [serverAnswers_snoc, h2, h.answers]
      simp
  have reply : ∀ a (d' : ServerDialogue) (p' : ServerPhase), fl = none → i.heard? = none → i.answer? = some a → i.taken = [] →
      i.log.filterMap Prod.snd = [.answer a] → (∀ e rs, i ≠ .failed e rs) → serverPhase (S ++ [i]) = p' →
      (serverDialogue S).observe i = d' → accepts L os (S ++ [i]) = accepts L os S →
      Core L (ClientView.of A) (serverHeard S) p' d' (accepts L os S) D (some (.answer a)) →
      ∃ D' fl', Together L os gr A (S ++ [i]) D' fl' := by
    rintro a d' p' rfl h1 h2 h3 h4 h5 h6 h7 h8 hcore
    refine ⟨D, some (.answer a), ?_, h.output, ?_, ?_, ?_, ?_, h.expected⟩
    · rw [serverHeard_snoc, h1, h6, serverDialogue_snoc, h7, h8]
      simpa using hcore
    · rw [serverTaken_append, serverHeard_snoc, h1, h.taken]
      simp [serverTaken, h3]
    · intro e rs hm
      rcases List.mem_append.mp hm with hm | hm
      · exact h.accepted e rs hm
      · exact h5 e rs (List.mem_singleton.mp hm).symm
    · rw [serverLog_snoc, List.drop_append_of_le_length hlen, List.filterMap_append, h.flight, h4]
      rfl
    · rw [serverAnswers_snoc, h2, h.answers]
      simp [flightAnswers]
  -- a message is heard
  have heard : i.reads = true → ∃ D' fl', Together L os gr A (S ++ [i]) D' fl' := by
    intro hi
    cases hD : D with
    | nil =>
      rw [hD] at hun
      exact absurd (List.prefix_nil.mp hun) (Server.hears_nothing hst hmax hi)
    | cons e D0 =>
      subst hD
      rw [said_cons] at hun
      obtain ⟨ht, hl⟩ := (hsane e List.mem_cons_self).taken h.core.sayable
      have hie := Server.hears hst hi ht hl hun
      subst hie
      have hwun := Server.taken_prefix hinv hguard
      have hbytes : said L (serverHeard S) ++ e.bytes L <+:
          said L (ClientView.of A).saidBefore ++ (ClientView.of A).sent := by
        rw [← h.output]
        refine .trans ?_ hg
        rw [Server.given_eq hinv, h.taken]
        exact (List.prefix_append_right_inj _).mpr hwun
      have hrt : ∀ x, (ClientView.of A).current = some x → x.2.RoundTrip L os := by
        intro x hx
        obtain ⟨q, hq⟩ := ClientView.remaining_of_current hx
        have := ClientView.of_remaining_get (A' := A') hq
        exact hF.commands.roundTrip x (List.mem_of_getElem? this)
      have hfl : fl = none := by
        cases hfl : fl with
        | none => rfl
        | some f =>
          rw [hfl] at h
          cases f with
          | literal => exact (h.core.literal_not_heard rfl hrt hbytes).elim
          | answer a => exact absurd h.core.answer_nothing (by simp)
      subst hfl
      have hm : accepts L os S = eventSyncs L e := by
        by_cases hp : serverPhase S = .command
        · have hall := C21_server_literals_of_command hst hi hp
          have hs := h.core.sayable
          rw [hp] at hs
          rcases hs with ⟨-, c, rfl⟩ | ⟨hh, -⟩ | ⟨hh, -⟩
          · obtain ⟨c', hc', hrt, hfit⟩ | ⟨_, hh, -⟩ | ⟨hh, -⟩ := hsane _ List.mem_cons_self
            · rw [← Command.event_inj hc'] at hrt hfit
              have hall' := Command.allAnnouncements hrt
              rw [hfit.transmitted] at hall'
              have hall : AllAnnouncements (commandFraming L os) (c.event.bytes L) (serverLiterals S) := hall
              rw [Command.event_bytes] at hall
              rw [accepts, hall.unique hall', answerOf_length hrt (post := []) (by simp)]
              have single : SingleLine (L.encodeCommand c) → syncs (L.encodeCommand c) = 0 := by
                rintro ⟨l, hl, -⟩; rw [hl]; rfl
              obtain ⟨tag, body⟩ := c
              cases body with
              | authenticate a b => exact single (hL.encodeAuthenticate ..)
              | idle => exact single (hL.encodeIdle ..)
              | other o => rfl
            · exact (Command.event_not_data hh).elim
            · exact (Command.event_not_done hh).elim
          · cases hh
          · cases hh
        · have hlit := hinv.literals_nil (by rw [hphase]; exact hp)
          rw [Server.of_literals hst] at hlit
          rw [accepts, hlit]
          rcases h.core.sayable with ⟨hh, -⟩ | ⟨-, a, rfl⟩ | ⟨-, rfl⟩
          · exact (hp hh).elim
          · rfl
          · rfl
      refine ⟨D0, none, ?_, h.output, ?_, ?_, ?_, ?_, h.expected⟩
      · have := h.core.hear hn hm
        rw [serverHeard_snoc, serverPhase_snoc, serverDialogue_snoc, ServerDialogue.observe_received, accepts_snoc]
        exact this
      · rw [serverTaken_append, serverHeard_snoc, h.taken]
        simp [serverTaken, said, SItem.taken, SItem.heard?]
      · intro e' rs hm
        rcases List.mem_append.mp hm with hm | hm
        · exact h.accepted e' rs hm
        · cases List.mem_singleton.mp hm
      · rw [serverLog_snoc, show (SItem.received (e.bytes L) e).log = [] from rfl, List.append_nil]
        exact h.flight
      · rw [serverAnswers_snoc, h.answers]
        simp [SItem.answer?]
  cases i with
  | enqueue hd r => exact quiet rfl rfl rfl rfl nofun (by rw [serverPhase_snoc]; rfl) rfl (by rw [accepts_snoc])
  | input b => exact quiet rfl rfl rfl rfl nofun (by rw [serverPhase_snoc]; rfl) rfl (by rw [accepts_snoc])
  | output b => exact quiet rfl rfl rfl rfl nofun (by rw [serverPhase_snoc]; rfl) rfl (by rw [accepts_snoc])
  | sent e => exact quiet rfl rfl rfl rfl nofun (by rw [serverPhase_snoc]; rfl) rfl (by rw [accepts_snoc])
  | quiet => exact quiet rfl rfl rfl rfl nofun (by rw [serverPhase_snoc]; rfl) rfl (by rw [accepts_snoc])
  | starved => exact quiet rfl rfl rfl rfl nofun (by rw [serverPhase_snoc]; rfl) rfl (by rw [accepts_snoc])
  | received w e => exact heard rfl
  | failed e rs => exact heard rfl
  | authContinue q r =>
    cases r with
    | error _ => exact quiet rfl rfl rfl rfl nofun (by rw [serverPhase_snoc]; rfl) rfl (by rw [accepts_snoc])
    | ok hd =>
      rcases hguard with ⟨hp, -⟩ | ⟨-, hh⟩
      · rw [hphase] at hp
        obtain ⟨hfl, hcore⟩ := h.core.sendContinue hn hp hallow q
        exact reply _ _ _ hfl rfl rfl rfl rfl nofun (by rw [serverPhase_snoc]; rfl) rfl (by rw [accepts_snoc]) hcore
      · cases hh
  | authFinish st r =>
    cases r with
    | error _ => exact quiet rfl rfl rfl rfl nofun (by rw [serverPhase_snoc]; rfl) rfl (by rw [accepts_snoc])
    | ok hd =>
      rcases hguard with ⟨hp, -⟩ | ⟨-, hh⟩
      · rw [hphase] at hp
        obtain ⟨ha, tag, body, hr, rfl⟩ := hallow
        obtain ⟨hfl, hcore⟩ := h.core.sendFinish hn hp ha hr body
        exact reply _ _ _ hfl rfl rfl rfl rfl nofun (by rw [serverPhase_snoc]; rfl) rfl (by rw [accepts_snoc]) hcore
      · cases hh
  | idleAccept q r =>
    cases r with
    | error _ => exact quiet rfl rfl rfl rfl nofun (by rw [serverPhase_snoc]; rfl) rfl (by rw [accepts_snoc])
    | ok hd =>
      rcases hguard with ⟨hp, -⟩ | ⟨-, hh⟩
      · rw [hphase] at hp
        obtain ⟨hfl, hcore⟩ := h.core.sendAccept hp q
        exact reply _ _ _ hfl rfl rfl rfl rfl nofun (by rw [serverPhase_snoc]; rfl) rfl (by rw [accepts_snoc]) hcore
      · cases hh
  | idleReject st r =>
    cases r with
    | error _ => exact quiet rfl rfl rfl rfl nofun (by rw [serverPhase_snoc]; rfl) rfl (by rw [accepts_snoc])
    | ok hd =>
      rcases hguard with ⟨hp, -⟩ | ⟨-, hh⟩
      · rw [hphase] at hp
        obtain ⟨tag, body, hr, rfl⟩ := hallow
        obtain ⟨hfl, hcore⟩ := h.core.sendReject hp hr body
        exact reply _ _ _ hfl rfl rfl rfl rfl nofun (by rw [serverPhase_snoc]; rfl) rfl (by rw [accepts_snoc]) hcore
      · cases hh
  | literal w rs =>
    have hp0 := (C21_server_literal hO hst).1
    have hne : serverUnread S ≠ [] := by
      obtain ⟨-, hpu, -, _, _, _, ⟨p0, l, _, rfl, -, hl, -⟩, -⟩ := C21_server_literal hO hst
      intro h0
      rw [h0] at hpu
      exact hl.ne_nil (List.append_eq_nil_iff.mp (List.prefix_nil.mp hpu)).2
    cases hD : D with
    | nil => rw [hD] at hun; exact absurd (List.prefix_nil.mp hun) hne
    | cons e D0 =>
      subst hD
      rw [said_cons] at hun
      have hs := h.core.sayable
      rw [hp0] at hs
      obtain ⟨c, rfl⟩ : ∃ c : Command, e = c.event := by
        rcases hs with ⟨-, h⟩ | ⟨hh, -⟩ | ⟨hh, -⟩
        · exact h
        · cases hh
        · cases hh
      rw [Command.event_bytes] at hun
      obtain ⟨hrt, hfit⟩ : c.RoundTrip L os ∧ c.Fits L os := by
        obtain ⟨c', hc', hrt, hfit⟩ | ⟨_, hh, -⟩ | ⟨hh, -⟩ := hsane _ List.mem_cons_self
        · rw [← Command.event_inj hc'] at hrt hfit; exact ⟨hrt, hfit⟩
        · exact (Command.event_not_data hh).elim
        · exact (Command.event_not_done hh).elim
      obtain ⟨hp, hpu, -, pre, dd, mode, post, he, hw, hrs, hle, hans⟩ := Server.literal_next hO hst hrt hfit hun
      have hbytes : said L (serverHeard S) ++ wire pre <+:
          said L (ClientView.of A).saidBefore ++ (ClientView.of A).sent := by
        rw [← h.output]
        refine .trans ?_ hg
        rw [Server.given_eq hinv, h.taken, ← hw]
        exact (List.prefix_append_right_inj _).mpr hpu
      have hfl : fl = none := by
        cases hfl : fl with
        | none => rfl
        | some f =>
          rw [hfl] at h
          cases f with
          | literal => exact (h.core.literal_once hL rfl hrt he hle hbytes).elim
          | answer a => exact absurd h.core.answer_nothing (by simp)
      cases mode with
      | nonSync =>
        have hrs : rs = [] := hrs
        subst hrs
        exact quiet rfl rfl rfl rfl nofun (by rw [serverPhase_snoc]; rfl) rfl (by rw [accepts_snoc]; simp [hans])
      | sync =>
        subst hfl
        have hcore := h.core.acceptLiteral hn hL hp rfl hrt he hle hbytes
        refine ⟨c.event :: D0, some .literal, ?_, h.output, ?_, ?_, ?_, ?_, h.expected⟩
        · rw [serverHeard_snoc, serverPhase_snoc, serverDialogue_snoc, accepts_snoc]
          have h1 : accepts L os S + (answerOf L os w).length = accepts L os S + 1 := by rw [hans, hrs]; rfl
          show Core L (ClientView.of A) (serverHeard S ++ []) (serverPhase S) (serverDialogue S)
            (accepts L os S + (answerOf L os w).length) (c.event :: D0) (some .literal)
          rw [h1, List.append_nil]
          exact hcore
        · rw [serverTaken_append, serverHeard_snoc, h.taken]
          simp [serverTaken, SItem.taken, SItem.heard?]
        · intro e' rs hm
          rcases List.mem_append.mp hm with hm | hm
          · exact h.accepted e' rs hm
          · cases List.mem_singleton.mp hm
        · rw [serverLog_snoc, List.drop_append_of_le_length hlen, List.filterMap_append, h.flight, hrs]
          rfl
        · rw [serverAnswers_snoc, h.answers]
          simp [SItem.answer?, flightAnswers]

end ImapFlow
