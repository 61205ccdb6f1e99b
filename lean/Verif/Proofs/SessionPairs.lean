import Verif.Proofs.SessionWords
import Verif.Proofs.DialogueTold
import Verif.Proofs.ExampleScripts

/-!
# Example programs that suit each other
-/

namespace ImapFlow

variable {K : Type} {L : Lib} {gc gs : HandleGenerator} {os : ServerOptions} {text : Text} {commands : List Command}
  {datas : List AuthenticateData} {tag : Tag} {bodies : List StatusBody} {requests : List Text} {told : List Data}

/-- The calls of the example servers. -/
def OpWords (L : Lib) (bodies : List StatusBody) (requests : List Text) (told : List Data) : ServerOp → Prop
  | .enqueueStatus (.tagged _ b) => b ∈ bodies
  | .enqueueData d => d ∈ told
  | .authenticateContinue q => ∃ t ∈ requests, L.ccrBasicFromStr none t = some q
  | .idleAccept q => ∃ t ∈ requests, L.ccrBasicFromStr none t = some q
  | .authenticateFinish (.tagged _ b) => b ∈ bodies
  | .idleReject (.tagged _ b) => b ∈ bodies
  | _ => False

/-- Calls for AUTHENTICATE succeed. -/
def SItem.AuthOk : SItem → Prop
  | .authContinue _ r => ∃ x, r = .ok x
  | .authFinish _ r => ∃ x, r = .ok x
  | _ => True

/-- The calls of the example servers in a trace. -/
def Words (L : Lib) (bodies : List StatusBody) (requests : List Text) (told : List Data) (i : SItem) : Prop :=
  (∃ op, i.op? = some op ∧ OpWords L bodies requests told op) ∧ i.AuthOk

theorem Words.of_calls {c c' : Server} {calls : List ServerOp} {J : List SItem} (h : c.Calls L calls c' J)
    (hw : ∀ op ∈ calls, OpWords L bodies requests told op)
    (h1 : ∀ q, calls = [.authenticateContinue q] → ∃ x, (c.authenticateContinue q).2 = .ok x)
    (h2 : ∀ st, calls = [.authenticateFinish st] → ∃ c1 x, c.authenticateFinish st = .ok (c1, .ok x)) :
    ∀ j ∈ J, Words L bodies requests told j := by
  obtain ⟨ht, rfl | ⟨op, rfl, h3, h4⟩⟩ := h
  · cases ht; exact fun _ hj => (List.not_mem_nil hj).elim
  · have hw := hw op (List.mem_singleton.2 rfl)
    simp only [Server.trace] at ht
    split at ht
    · cases ht
    · rename_i c1 J1 h5
      cases ht
      rw [List.append_nil]
      cases op with
      | next => exact (h3 rfl).elim
      | enqueueInput b => exact (h4 _ rfl).elim
      | enqueueData d => cases h5; intro j hj; cases List.mem_singleton.1 hj; exact ⟨⟨_, rfl, hw⟩, trivial⟩
      | enqueueStatus d => cases h5; intro j hj; cases List.mem_singleton.1 hj; exact ⟨⟨_, rfl, hw⟩, trivial⟩
      | enqueueContinuationRequest d => exact hw.elim
      | authenticateContinue q =>
        cases h5; intro j hj; cases List.mem_singleton.1 hj
        exact ⟨⟨_, rfl, hw⟩, h1 q rfl⟩
      | authenticateFinish st =>
        obtain ⟨c2, x, h6⟩ := h2 st rfl
        simp only [Server.callTrace, h6, Except.map] at h5
        cases h5; intro j hj; cases List.mem_singleton.1 hj
        exact ⟨⟨_, rfl, hw⟩, x, rfl⟩
      | idleAccept q =>
        simp only [Server.callTrace, Except.map] at h5
        split at h5 <;> cases h5
        intro j hj; cases List.mem_singleton.1 hj; exact ⟨⟨_, rfl, hw⟩, trivial⟩
      | idleReject q =>
        simp only [Server.callTrace, Except.map] at h5
        split at h5 <;> cases h5
        intro j hj; cases List.mem_singleton.1 hj; exact ⟨⟨_, rfl, hw⟩, trivial⟩

theorem Conversant.clear (hc : Conversant L os text commands datas tag bodies requests told) {i : SItem}
    (h : Words L bodies requests told i) : i.Clear L tag := by
  obtain ⟨⟨op, ho, h⟩, -⟩ := h
  cases i with
  | enqueue hd r =>
    cases ho
    refine ⟨nofun, fun hd' r' hm ht => ?_⟩
    cases List.mem_singleton.1 hm
    cases r with
    | status st =>
      cases st with
      | tagged t b => cases ht t b rfl; exact hc.bodies b h _
      | _ => exact h.elim
    | data d => exact hc.told d h _
    | continuationRequest q => exact h.elim
  | authContinue q r =>
    cases ho
    refine ⟨nofun, fun hd' r' hm ht => ?_⟩
    cases r with
    | error _ => cases hm
    | ok _ =>
      cases List.mem_singleton.1 hm
      obtain ⟨t, h1, h2⟩ := h
      exact hc.requests t h1 q h2 _
  | idleAccept q r =>
    cases ho
    refine ⟨nofun, fun hd' r' hm ht => ?_⟩
    cases r with
    | error _ => cases hm
    | ok _ =>
      cases List.mem_singleton.1 hm
      obtain ⟨t, h1, h2⟩ := h
      exact hc.requests t h1 q h2 _
  | authFinish st r =>
    cases ho
    refine ⟨nofun, fun hd' r' hm ht => ?_⟩
    cases r with
    | error _ => cases hm
    | ok _ =>
      cases List.mem_singleton.1 hm
      cases st with
      | tagged t b => cases ht t b rfl; exact hc.bodies b h _
      | _ => exact h.elim
  | idleReject st r =>
    cases ho
    refine ⟨nofun, fun hd' r' hm ht => ?_⟩
    cases r with
    | error _ => cases hm
    | ok _ =>
      cases List.mem_singleton.1 hm
      cases st with
      | tagged t b => cases ht t b rfl; exact hc.bodies b h _
      | _ => exact h.elim
  | _ => cases ho

/-- A client that enqueues at most one command. -/
structure Speaks (commands : List Command) (datas : List AuthenticateData) (A : List CItem) : Prop where
  command : clientEnqueued A = [] ∨ ∃ x, clientEnqueued A = [x] ∧ x.2 ∈ commands
  datas : ∀ d ∈ A.filterMap CItem.data?, d ∈ datas

theorem Speaks.enqueued {A : List CItem} (h : Speaks commands datas A) : ∀ x ∈ clientEnqueued A, x.2 ∈ commands := by
  rcases h.command with h | ⟨x, h, hx⟩
  · rw [h]; nofun
  · rw [h]; intro y hy; rw [List.mem_singleton.1 hy]; exact hx

theorem Conversant.fair (hc : Conversant L os text commands datas tag bodies requests told) {A : List CItem}
    (h : Speaks commands datas A) : FairClient L os A := by
  refine ⟨⟨fun x hx => (hc.commands _ (h.enqueued x hx)).1, fun x hx => (hc.commands _ (h.enqueued x hx)).2, ?_⟩,
    fun d hd => hc.datas d (h.datas d hd), hc.done⟩
  rcases h.command with h | ⟨x, h, -⟩ <;> rw [h] <;> simp

/-- What such a client says. -/
def Saying (commands : List Command) (e : ServerEvent) : Prop :=
  (∃ c ∈ commands, e = c.event) ∨ (∃ a, e = .authenticateDataReceived a) ∨ e = .idleDoneReceived

theorem Speaks.said {A : List CItem} (h : Speaks commands datas A) : ∀ e ∈ (ClientView.of A).said, Saying commands e := by
  intro e he
  rcases ClientView.said_mem he with ⟨x, hx, rfl⟩ | ⟨a, -, rfl⟩ | rfl
  · exact .inl ⟨_, h.enqueued x hx, rfl⟩
  · exact .inr (.inl ⟨a, rfl⟩)
  · exact .inr (.inr rfl)

theorem Saying.tagged {e : ServerEvent} (ht : ∀ c ∈ commands, c.tag = tag) (h : Saying commands e) : Tagged tag e := by
  intro t h1
  rcases h with ⟨c, hc, rfl⟩ | ⟨a, rfl⟩ | rfl
  · rw [c.event_tag] at h1
    cases h1
    exact ht c hc
  · cases h1
  · cases h1

section
variable {σ τ : Type} {P : Program σ Client ClientEvent ClientOp} {P' : Program τ Server ServerEvent ServerOp}
  {I : σ → List CItem → Prop} {Q : List CItem → Prop} {J : τ → List SItem → Prop}

theorem Conversant.fitting (hc : Conversant L os text commands datas tag bodies requests told) (hL : L.Lawful)
    (ho : ServerOptions.default L = .ok os) (hk : ClientKept L gc P I Q) (hk' : ServerKept L gs os { kind := .ok, code := none, text } P' J (fun _ => False))
    (hs : ServerShaped L P' (Words L bodies requests told)) (ht : ∀ c ∈ commands, c.tag = tag)
    (hI : ∀ {v A}, I v A → Speaks commands datas A) (hQ : ∀ {A}, Q A → Speaks commands datas A)
    (hJ : ∀ {w B}, J w B → OrderlyServer B) :
    Fitting L gc gs os { kind := .ok, code := none, text } P P' I Q
      (fun w B => J w B ∧ Shapely (Words L bodies requests told) B) (Saying commands) where
  lawful := hL
  built := .default ho
  size := by
    unfold ServerOptions.default at ho
    split at ho
    · cases ho
    · split at ho
      · cases ho
      · cases ho; exact (by decide : 0 < 25 * 1024 * 1024 + 64 * 1024)
  client := hk
  server := hk'.shaped hs
  fair h := hc.fair (hI h)
  ended h := hc.fair (hQ h)
  said h := (hI h).said
  saidEnded h := (hQ h).said
  orderly h := hJ h.1
  clear h he := .of_shape hc.greeting hc.accepts h.2 (fun i hi => hc.clear hi) (hJ h.1) fun e h1 => (he e h1).tagged ht

theorem Fitting.begins {gr : Greeting} {ok : ServerEvent → Prop} (hf : Fitting L gc gs os gr P P' I Q J ok) :
    ClearServer L .default os gr [] :=
  hf.clear hf.server.start fun _ h => (List.not_mem_nil h).elim

/-- The start of the server. -/
theorem Fitting.runs (hE : L.Exemplary) {os : ServerOptions} (ho : ServerOptions.default L = .ok os)
    (htext : text ∈ [Examples.serverText, Examples.serverIdleText])
    {ok : ServerEvent → Prop} (hf : Fitting L gc gs os { kind := .ok, code := none, text } P P' I Q J ok)
    {as : List SessionAct} {s : Session K σ τ} {R : List SessionItem} (h : SessionRuns L gc gs text P P' as s R) :
    Session.run L P P' ⟨Examples.startClient P gc,
      .running P'.start (.insecure (Server.new gs os { kind := .ok, code := none, text })), [], []⟩ as = some (s, R) := by
  obtain ⟨server, h1, h2⟩ := h
  obtain ⟨o', ho', h3⟩ := Examples.startServer_ok (K := K) hf.lawful hE gs P' (text := text) htext
  rw [ho] at ho'
  cases ho'
  rw [h1] at h3
  cases h3
  exact h2

theorem Fitting.session (hE : L.Exemplary) {os : ServerOptions} (ho : ServerOptions.default L = .ok os)
    (htext : text ∈ [Examples.serverText, Examples.serverIdleText])
    {ok : ServerEvent → Prop} (hf : Fitting L gc gs os { kind := .ok, code := none, text } P P' I Q J ok)
    {as : List SessionAct} {s : Session K σ τ} {R : List SessionItem} (h : SessionRuns L gc gs text P P' as s R) :
    (∃ v c w d G n T, Live L gc gs os { kind := .ok, code := none, text } I J s R v c w d G n T) ∨
    ∃ c w d G n T, Ended L gc gs os { kind := .ok, code := none, text } Q J s R c w d G n T :=
  hf.run hf.begins (hf.runs hE ho htext h)

variable {gr : Greeting} {ok : ServerEvent → Prop} {s : Session K σ τ} {R : List SessionItem} {v : σ} {c : FullStream K Client} {w : τ}
  {d : FullStream K Server} {G : List StreamNetItem} {n : Net} {T : List NItem}

theorem Live.roundTrip (hf : Fitting L gc gs os gr P P' I Q J ok) (h : Live L gc gs os gr I J s R v c w d G n T) :
    ∀ m ∈ serverMessages gr (serverItems T), m.RoundTrip L .default :=
  Net.Linked.understood hf.lawful hf.built hf.size h.link.net h.clear (hf.fair h.inv) (hf.orderly h.inv')

theorem Live.together (hf : Fitting L gc gs os gr P P' I Q J ok) (h : Live L gc gs os gr I J s R v c w d G n T) :
    ∃ D fl, Together L os gr (clientItems T) (serverItems T) D fl :=
  (Net.run_linked h.link.net).together hf.lawful hf.built (h.roundTrip hf) hf.size (hf.fair h.inv) (hf.orderly h.inv')
    (P := T) (Q := []) (by simp)

end

/-! ## Endless runs -/

section
variable {σ τ : Type} {P : Program σ Client ClientEvent ClientOp} {P' : Program τ Server ServerEvent ServerOp}
  {I : σ → List CItem → Prop} {Q : List CItem → Prop} {J : τ → List SItem → Prop} {ok : ServerEvent → Prop}
  {f : Nat → Session K σ τ} {a : Nat → SessionAct} {R : Nat → List SessionItem}

theorem SessionForever.step (h : SessionForever L gc gs text P P' a f R) (i : Nat) :
    ∃ g, (f i).step L P P' (a i) = some (f (i + 1), g) ∧ R (i + 1) = R i ++ g := by
  obtain ⟨server, h1, h2⟩ := h i
  obtain ⟨server', h1', h3⟩ := h (i + 1)
  rw [h1] at h1'
  cases h1'
  rw [List.range_succ, List.map_append] at h3
  obtain ⟨y, R1, R2, h4, h5, h6⟩ := Session.run_snoc h3
  rw [h2] at h4
  cases h4
  exact ⟨R2, h5, h6⟩

/-- If the client does not end and the number of calls is bounded, the run is finite. -/
theorem Fitting.not_forever (hE : L.Exemplary) (ho : ServerOptions.default L = .ok os)
    (htext : text ∈ [Examples.serverText, Examples.serverIdleText])
    (hf : Fitting L gc gs os { kind := .ok, code := none, text } P P' I Q J ok) (h : SessionForever L gc gs text P P' a f R)
    (hr : ∀ i, (f i).client.isRunning = true) {N b : Nat}
    (hlines : ∀ i, N ≤ i → ∀ text, a i ≠ .clientLine text ∧ a i ≠ .serverLine text)
    (hb : ∀ i, (programCalls (sessionClient (R i))).length + (programCalls (sessionServer (R i))).length ≤ b) : False :=
  hf.finite hf.begins (fun i => hf.runs hE ho htext (h i)) hr hlines hb

end

/-! ## How much is said -/

theorem ClientView.of_datas (A : List CItem) :
    (ClientView.of A).ended.flatMap ClientEnded.datas ++ (ClientView.of A).datas = A.filterMap CItem.data? := by
  induction A using snocInduction with
  | nil => rfl
  | snoc A i ih =>
    have ev : ∀ (v : ClientView) (e : ClientEvent), (v.event e).ended.flatMap ClientEnded.datas ++ (v.event e).datas =
        v.ended.flatMap ClientEnded.datas ++ v.datas := by
      intro v e
      unfold ClientView.event
      split
      · simp [ClientView.terminate]
      · split <;> rfl
    rw [ClientView.of_snoc, List.filterMap_append, ← ih]
    cases i with
    | setAuth d r => cases r <;> simp [ClientView.observe, CItem.data?]
    | setDone r => cases r <;> simp [ClientView.observe, CItem.data?]
    | sent e => rw [ClientView.observe, ev]; simp [CItem.data?]
    | received b e => rw [ClientView.observe, ev]; simp [CItem.data?]
    | _ => simp [ClientView.observe, CItem.data?]

theorem ClientView.said_length (A : List CItem) :
    (ClientView.of A).said.length ≤ 2 * (clientEnqueued A).length + (A.filterMap CItem.data?).length := by
  rw [← ClientView.of_datas, ← (ClientView.of_fields A).2.2.1]
  generalize ClientView.of A = v
  have key : ∀ (en : List (RawHandle × Command)) (ed : List ClientEnded),
      ((en.zip ed).flatMap saidEnded).length ≤ 2 * min en.length ed.length + (ed.flatMap ClientEnded.datas).length := by
    intro en ed
    induction en generalizing ed with
    | nil => simp
    | cons x en ih =>
      cases ed with
      | nil => simp
      | cons y ed =>
        have := ih ed
        have h1 : (saidEnded (x, y)).length ≤ 2 + y.datas.length := by
          unfold saidEnded
          simp only [List.cons_append, List.length_cons, List.length_append, List.length_map]
          split <;> simp <;> omega
        simp only [List.zip_cons_cons, List.flatMap_cons, List.length_append, List.length_cons] at this ⊢
        omega
  have h1 := key v.enqueued v.ended
  unfold ClientView.said
  simp only [List.length_append]
  split
  · rename_i x hc
    obtain ⟨q, hq⟩ := ClientView.remaining_of_current hc
    have h2 : v.enqueued.length - v.ended.length = q.length + 1 := by
      have := congrArg List.length hq
      simpa [ClientView.remaining] using this
    have h3 : (v.saidNow x).length ≤ 2 + v.datas.length := by
      unfold ClientView.saidNow
      simp only [List.cons_append, List.length_cons, List.length_append, List.length_map]
      split <;> simp <;> omega
    omega
  · simp only [List.length_nil]
    omega

/-! ## The calls of the example servers -/

theorem Examples.request_some {L : Lib} {t : Text} {q : ContinuationRequest} (h : Examples.request L t = .ok q) :
    L.ccrBasicFromStr none t = some q := by
  unfold Examples.request at h
  split at h
  · cases h; assumption
  · cases h

theorem Examples.server_shaped : ServerShaped L (Examples.server L) (Words L [noBody] [] []) where
  event {v c e coin v' c' calls flow J} h hc := by
    have none : calls = [] → ∀ j ∈ J, Words L [noBody] [] [] j := by
      rintro rfl
      exact .of_calls hc (fun _ h => (List.not_mem_nil h).elim) nofun nofun
    simp only [Examples.server] at h
    split at h
    · split at h <;> cases h <;> exact none rfl
    · split at h
      · split at h
        · cases h
        · rename_i st hst
          cases h
          cases Examples.status_eq hst
          refine .of_calls hc (fun op h => ?_) nofun nofun
          cases List.mem_singleton.1 h
          exact List.mem_singleton.2 rfl
      · split at h <;> cases h; exact none rfl
      · cases h; exact none rfl
  line h _ := by cases h

theorem Examples.serverAuthenticate_shaped :
    ServerShaped L (Examples.serverAuthenticate L) (Words L authBodies authRequests []) where
  event {v c e coin v' c' calls flow J} h hc := by
    have none : calls = [] → ∀ j ∈ J, Words L authBodies authRequests [] j := by
      rintro rfl
      exact .of_calls hc (fun _ h => (List.not_mem_nil h).elim) nofun nofun
    have more : ∀ t ∈ authRequests, ∀ q, Examples.request L t = .ok q → ∀ x, unwrap (c.authenticateContinue q).2 = .ok x →
        calls = [.authenticateContinue q] → ∀ j ∈ J, Words L authBodies authRequests [] j := by
      rintro t ht q hq x hx rfl
      refine .of_calls hc (fun op h => ?_) (fun q' h => ?_) nofun
      · cases List.mem_singleton.1 h
        exact ⟨t, ht, Examples.request_some hq⟩
      · cases h
        revert hx
        generalize (c.authenticateContinue q).2 = r
        cases r with
        | error _ => nofun
        | ok y => exact fun _ => ⟨y, rfl⟩
    have done : ∀ b ∈ authBodies, ∀ t c1 r x, c.authenticateFinish (.tagged t b) = .ok (c1, r) → unwrap r = .ok x →
        calls = [.authenticateFinish (.tagged t b)] → ∀ j ∈ J, Words L authBodies authRequests [] j := by
      rintro b hb t c1 r x h1 h2 rfl
      refine .of_calls hc (fun op h => ?_) nofun (fun q' h => ?_)
      · cases List.mem_singleton.1 h
        exact hb
      · cases h
        cases r with
        | error _ => cases h2
        | ok y => exact ⟨c1, y, h1⟩
    simp only [Examples.serverAuthenticate] at h
    split at h
    · split at h <;> cases h <;> exact none rfl
    · split at h
      · split at h
        · split at h
          · cases h
          · rename_i q hq
            split at h
            · cases h
            · rename_i x hx
              cases h
              exact more _ (by simp [authRequests]) q hq x hx rfl
        · split at h
          · cases h
          · rename_i st hst
            cases Examples.status_eq hst
            split at h
            · cases h
            · rename_i hf
              split at h
              · cases h
              · rename_i hx
                cases h
                exact done _ (by simp [authBodies]) _ _ _ _ hf hx rfl
      · split at h
        · split at h
          · cases h
          · rename_i q hq
            split at h
            · cases h
            · rename_i x hx
              cases h
              exact more _ (by simp [authRequests]) q hq x hx rfl
        · split at h
          · cases h
          · split at h
            · cases h
            · rename_i st hst
              cases Examples.status_eq hst
              split at h
              · cases h
              · rename_i hf
                split at h
                · cases h
                · rename_i hx
                  cases h
                  exact done _ (by simp [authBodies]) _ _ _ _ hf hx rfl
      · split at h
        · cases h
        · rename_i st hst
          cases h
          cases Examples.status_eq hst
          refine .of_calls hc (fun op h => ?_) nofun nofun
          cases List.mem_singleton.1 h
          show _ ∈ authBodies
          simp [authBodies]
      · cases h; exact none rfl
  line h _ := by cases h

theorem Examples.serverIdle_shaped (expunge : Data) :
    ServerShaped L (Examples.serverIdle L expunge) (Words L idleBodies [ascii "..."] [expunge]) where
  event {v c e coin v' c' calls flow J} h hc := by
    have none : calls = [] → ∀ j ∈ J, Words L idleBodies [ascii "..."] [expunge] j := by
      rintro rfl
      exact .of_calls hc (fun _ h => (List.not_mem_nil h).elim) nofun nofun
    simp only [Examples.serverIdle] at h
    split at h
    · split at h <;> cases h <;> exact none rfl
    · split at h
      · cases h; exact none rfl
      · split at h
        · cases h; exact none rfl
        · split at h
          · cases h
          · rename_i st hst
            cases h
            cases Examples.status_eq hst
            refine .of_calls hc (fun op h => ?_) nofun nofun
            cases List.mem_singleton.1 h
            show _ ∈ idleBodies
            simp [idleBodies]
      · cases h; exact none rfl
  line {v c text v' c' calls J} h hc := by
    have none : calls = [] → ∀ j ∈ J, Words L idleBodies [ascii "..."] [expunge] j := by
      rintro rfl
      exact .of_calls hc (fun _ h => (List.not_mem_nil h).elim) nofun nofun
    simp only [Examples.serverIdle] at h
    split at h
    · cases h
    · replace h := Option.some.inj h
      split at h
      · split at h
        · cases h
        · rename_i q hq
          split at h
          · cases h
          · cases h
            refine .of_calls hc (fun op h => ?_) nofun nofun
            cases List.mem_singleton.1 h
            exact ⟨_, List.mem_singleton.2 rfl, Examples.request_some hq⟩
      · split at h
        · split at h
          · cases h; exact none rfl
          · split at h
            · cases h
            · rename_i st hst
              cases Examples.status_eq hst
              split at h
              · cases h
              · cases h
                refine .of_calls hc (fun op h => ?_) nofun nofun
                cases List.mem_singleton.1 h
                show _ ∈ idleBodies
                simp [idleBodies, noBody]
        · split at h
          · cases h
            refine .of_calls hc (fun op h => ?_) nofun nofun
            cases List.mem_singleton.1 h
            exact List.mem_singleton.2 rfl
          · cases h; exact none rfl

/-! ## Events -/

theorem Client.answer_events (hL : L.Lawful) {oc : ClientOptions} {ops : List ClientOp} {c : Client} {A : List CItem}
    (hA : (Client.new gc oc).trace L ops = .ok (c, A)) : (A.filterMap CItem.event?).filterMap ClientEvent.answer? = clientAnswers A := by
  unfold clientAnswers
  rw [List.filterMap_filterMap]
  refine filterMap_congr' fun i hi => ?_
  obtain ⟨a, b, hab⟩ := List.append_of_mem hi
  rw [hab] at hA
  have hv := Client.trace_guard hL hA
  cases i with
  | sent e => obtain ⟨-, hd, cmd, q, -, ⟨rfl, -⟩ | ⟨rfl, -⟩ | ⟨rfl, -⟩ | ⟨rfl, -⟩⟩ := hv <;> rfl
  | received w e => cases e <;> rfl
  | _ => rfl

theorem Server.heard_events {gr : Greeting} {ops : List ServerOp} {s : Server} {S : List SItem}
    (hS : (Server.new gs os gr).trace L ops = .ok (s, S)) : (S.filterMap SItem.event?).filterMap ServerEvent.heard? = serverHeard S := by
  unfold serverHeard
  rw [List.filterMap_filterMap]
  refine filterMap_congr' fun i hi => ?_
  obtain ⟨a, b, hab⟩ := List.append_of_mem hi
  rw [hab] at hS
  have hv := Server.trace_guard hS
  cases i with
  | sent e =>
    obtain ⟨-, m, -, hm⟩ := hv
    cases m with
    | greeting g => cases hm; rfl
    | response hd r => cases hd <;> cases hm; rfl
  | received w e =>
    obtain ⟨-, -, -, ht, -⟩ := hv
    cases e with
    | greetingSent g => exact absurd ht (by unfold Taken; split <;> simp [command_event_ne])
    | responseSent hd r => exact absurd ht (by unfold Taken; split <;> simp [command_event_ne])
    | _ => rfl
  | _ => rfl

/-- What the programs observed, in terms of the traces. -/
structure Observed (R : List SessionItem) (T : List NItem) : Prop where
  answers : (programEvents (sessionClient R)).filterMap ClientEvent.answer? = clientAnswers (clientItems T)
  told : (programEvents (sessionClient R)).filterMap ClientEvent.told? = (clientItems T).filterMap CItem.told?
  terminals : (programEvents (sessionClient R)).filter ClientEvent.isTerminal = clientTerminals (clientItems T)
  heard : (programEvents (sessionServer R)).filterMap ServerEvent.heard? = serverHeard (serverItems T)
  clientCalls : programCalls (sessionClient R) = (clientItems T).filterMap CItem.op?
  serverCalls : programCalls (sessionServer R) = (serverItems T).filterMap SItem.op?
  clientEvents : programEvents (sessionClient R) = (clientItems T).filterMap CItem.event?
  serverEvents : programEvents (sessionServer R) = (serverItems T).filterMap SItem.event?

theorem Linkage.observed {gr : Greeting} {sn : StreamNet K} {R : List SessionItem} {G : List StreamNetItem} {n : Net} {T : List NItem}
    (h : Linkage L gc gs os gr sn (programStream (sessionClient R)) (programStream (sessionServer R)) G n T) (hL : L.Lawful)
    (hO : ServerOptions.Built L os) : Observed R T := by
  obtain ⟨e1, e2⟩ := h.told hL hO
  obtain ⟨c1, c2⟩ := h.calls
  have e1 : programEvents (sessionClient R) = (clientItems T).filterMap CItem.event? := e1.symm
  have e2 : programEvents (sessionServer R) = (serverItems T).filterMap SItem.event? := e2.symm
  obtain ⟨cops, hct⟩ := (Net.run_linked h.net).client
  obtain ⟨sops, hst⟩ := (Net.run_linked h.net).server
  refine ⟨?_, ?_, ?_, ?_, c1.symm, c2.symm, e1, e2⟩
  · rw [e1]; exact Client.answer_events hL hct
  · rw [e1]; exact Client.told_events hL hct
  · rw [e1, ← List.filterMap_eq_filter, List.filterMap_filterMap]
    refine filterMap_congr' fun i _ => ?_
    unfold CItem.terminal?
    cases i.event? with
    | none => rfl
    | some e => simp [Option.guard, Option.filter]
  · rw [e2]; exact Server.heard_events hst

end ImapFlow
