import Verif.Proofs.SessionLogin
import Verif.Proofs.SessionSides
import Verif.Props.C67
import Verif.Spec.Calls

/-!
# `client_authenticate.rs` and `server_authenticate.rs`
-/

namespace ImapFlow

variable {K : Type} {L : Lib} {gc gs : HandleGenerator} {os : ServerOptions} {tag : Tag}

/-- The greeting of `server_authenticate.rs` and of `server_idle.rs`. -/
abbrev idleGreeting : Greeting := { kind := .ok, code := none, text := Examples.serverIdleText }

/-- What is known of `server_authenticate.rs`. -/
abbrev AuthServer (L : Lib) (w : Examples.AuthServerVars) (B : List SItem) : Prop :=
  Examples.AuthServerInv idleGreeting w B ∧ Shapely (Words L authBodies authRequests []) B

theorem AuthInv.speaks {v : Examples.AuthVars} {A : List CItem} (h : Examples.AuthInv tag v A) :
    Speaks [Examples.authCommand tag] (.cancel :: Examples.authDatas) A := by
  obtain ⟨h1, h2⟩ := h
  have e : (clientGist A).enqueued = clientEnqueued A := (ClientView.of_fields A).2.2.1
  cases v with
  | greeting =>
    obtain ⟨h2, -⟩ := h2
    exact ⟨.inl (by rw [← e, h2]), by rw [h1, h2]; exact fun _ h => (List.not_mem_nil h).elim⟩
  | running datas =>
    obtain ⟨hd, ds, k, h2, -, -, -, h3, -⟩ := h2
    refine ⟨.inr ⟨(hd, Examples.authCommand tag), by rw [← e, h2], List.mem_singleton.2 rfl⟩, ?_⟩
    rw [h1, h2]
    intro d hd
    rw [show (⟨true, [(_, Examples.authCommand tag)], [], ds.length, ds⟩ : ClientGist).datas = ds from rfl, h3] at hd
    rcases List.mem_append.1 (List.mem_of_mem_take hd) with hd | hd
    · exact List.mem_cons_of_mem _ hd
    · rw [(List.mem_replicate.1 hd).2]; exact List.mem_cons_self

theorem clientEnqueued_event {A : List CItem} {i : CItem} {e : ClientEvent} (h : i.event? = some e) :
    clientEnqueued (A ++ [i]) = clientEnqueued A := by
  unfold clientEnqueued
  rw [List.flatMap_append]
  cases i <;> first | (cases h; done) | simp [CItem.enqueues]

theorem AuthOver.speaks {A : List CItem} (h : Examples.AuthOver tag A) :
    Speaks [Examples.authCommand tag] (.cancel :: Examples.authDatas) A := by
  obtain ⟨A', i, datas, hd, ca, st, rfl, hi, h⟩ := h
  obtain ⟨h1, h2⟩ := AuthInv.speaks h
  refine ⟨by rw [clientEnqueued_event hi]; exact h1, ?_⟩
  rw [List.filterMap_append, List.filterMap_cons, data_event hi]
  simpa using h2

theorem auth_fitting (hL : L.Lawful) (hE : L.Exemplary) (ho : ServerOptions.default L = .ok os)
    (hc : Conversant L os Examples.serverIdleText [Examples.authCommand tag] (.cancel :: Examples.authDatas) tag authBodies
      authRequests []) :
    Fitting L gc gs os idleGreeting (Examples.clientAuthenticate L tag) (Examples.serverAuthenticate L) (Examples.AuthInv tag)
      (Examples.AuthOver tag) (AuthServer L) (Saying [Examples.authCommand tag]) :=
  hc.fitting hL ho (Examples.clientAuthenticate_kept hL gc tag) (Examples.serverAuthenticate_kept hL (.default ho) hE)
    Examples.serverAuthenticate_shaped (fun c h => by rw [List.mem_singleton.1 h]; rfl) AuthInv.speaks AuthOver.speaks fun h => h.1.1

section
variable {s : Session K Examples.AuthVars Examples.AuthServerVars} {R : List SessionItem} {v : Examples.AuthVars}
  {c : FullStream K Client} {w : Examples.AuthServerVars} {d : FullStream K Server} {G : List StreamNetItem} {n : Net} {T : List NItem}
  {as : List SessionAct}

/-- The programs do not wait for each other. -/
theorem auth_unstuck (hf : Fitting L gc gs os idleGreeting (Examples.clientAuthenticate L tag) (Examples.serverAuthenticate L)
      (Examples.AuthInv tag) (Examples.AuthOver tag) (AuthServer L) (Saying [Examples.authCommand tag]))
    (h : Live L gc gs os idleGreeting (Examples.AuthInv tag) (AuthServer L) s R v c w d G n T) : ¬ s.Waits := by
  intro hw
  obtain ⟨-, -, -, -, -, -, -, hturn⟩ := h.waits hf hw
  have hgr := h.greeted hf hw
  have hinv := h.inv
  cases v with
  | greeting =>
    have : (clientGist (clientItems T)).greeted = true := hgr
    rw [hinv.2.1] at this
    cases this
  | running datas =>
    obtain ⟨-, hd, ds, k, hg, -⟩ := hinv
    have g1 : (ClientView.of (clientItems T)).enqueued = [(hd, Examples.authCommand tag)] := congrArg ClientGist.enqueued hg
    have g2 : (ClientView.of (clientItems T)).ended = [] := List.map_eq_nil_iff.1 (congrArg ClientGist.ended hg)
    have g3 : (ClientView.of (clientItems T)).asked = ds.length := congrArg ClientGist.asked hg
    have g4 : (ClientView.of (clientItems T)).datas = ds := congrArg ClientGist.datas hg
    have hrem : (ClientView.of (clientItems T)).remaining = [(hd, Examples.authCommand tag)] := by
      rw [ClientView.remaining, g1, g2]; rfl
    have hcur : ∀ x, (ClientView.of (clientItems T)).current = some x → x = (hd, Examples.authCommand tag) := by
      intro x hx
      obtain ⟨q, hq⟩ := ClientView.remaining_of_current hx
      rw [hrem] at hq
      cases hq
      rfl
    have hph : serverPhase (serverItems T) = .authenticate → (serverDialogue (serverItems T)).asked = 1 := by
      intro hp
      have hS := h.inv'.1.2
      rw [← ServerView.of_phase idleGreeting (serverItems T)] at hp
      cases w with
      | greeting => rw [(Beginning.view (gr := idleGreeting) hS).2.2.2] at hp; cases hp
      | running cur =>
        rcases hS with h1 | h1 | ⟨-, h1, -⟩
        · rw [h1] at hp; cases hp
        · rw [h1] at hp; cases hp
        · exact h1
    cases hturn with
    | idle a b => rw [hrem] at b; cases b
    | authenticateServer h' c' a b hp hr h0 h1 => rw [hph hp] at h0; cases h0
    | authenticateClient h' c' a b hp hr h0 h1 => rw [g3, g4] at h1; omega
    | idleServer h' c' a b => cases hcur _ a; cases b
    | idleClient h' c' a b => cases hcur _ a; cases b

/-! ## How often the programs call -/

/-- A request for more. -/
def Answer.isContinue : Answer → Bool
  | .authenticateContinue _ => true
  | _ => false

theorem asks_answers {oc : ClientOptions} {ops : List ClientOp} {c : Client} {A : List CItem} (hL : L.Lawful)
    (hA : (Client.new gc oc).trace L ops = .ok (c, A)) : A.countP Examples.asks = (clientAnswers A).countP Answer.isContinue := by
  rw [← Client.answer_events hL hA, List.filterMap_filterMap, List.countP_filterMap]
  refine List.countP_congr fun i _ => ?_
  unfold Examples.asks
  cases i.event? with
  | none => simp
  | some e => cases e <;> simp [ClientEvent.answer?, Answer.isContinue]

theorem answers_calls (S : List SItem) :
    (serverAnswers S).countP Answer.isContinue ≤ (S.filterMap SItem.op?).countP ServerOp.isContinue := by
  unfold serverAnswers
  rw [List.countP_filterMap, List.countP_filterMap]
  refine List.countP_mono_left fun i _ => ?_
  cases i with
  | authContinue q r => cases r <;> simp [SItem.answer?, SItem.op?, Answer.isContinue, ServerOp.isContinue]
  | authFinish q r => cases r <;> simp [SItem.answer?, Answer.isContinue]
  | idleAccept q r => cases r <;> simp [SItem.answer?, Answer.isContinue]
  | idleReject q r => cases r <;> simp [SItem.answer?, Answer.isContinue]
  | _ => simp [SItem.answer?]

/-- The number of calls is bounded by how often the server asks for more. -/
theorem auth_calls (hE : L.Exemplary)
    (hf : Fitting L gc gs os idleGreeting (Examples.clientAuthenticate L tag) (Examples.serverAuthenticate L)
      (Examples.AuthInv tag) (Examples.AuthOver tag) (AuthServer L) (Saying [Examples.authCommand tag]))
    (hr : SessionRuns L gc gs Examples.serverIdleText (Examples.clientAuthenticate L tag) (Examples.serverAuthenticate L) as s R)
    (h : Live L gc gs os idleGreeting (Examples.AuthInv tag) (AuthServer L) s R v c w d G n T) :
    (programCalls (sessionClient R)).length + (programCalls (sessionServer R)).length ≤
      3 + 2 * (programCalls (sessionServer R)).countP ServerOp.isContinue := by
  have hob := h.link.observed hf.lawful hf.built
  obtain ⟨D, fl, ht⟩ := h.together hf
  obtain ⟨cops, hct⟩ := (Net.run_linked h.link.net).client
  have hs := AuthInv.speaks h.inv
  have h1 : ((clientItems T).filterMap CItem.op?).length ≤ 1 + ((clientItems T).filterMap CItem.data?).length ∧
      ((clientItems T).filterMap CItem.data?).length = (clientItems T).countP Examples.asks := by
    obtain ⟨h1, h2⟩ := h.inv
    rw [h1]
    cases v with
    | greeting => obtain ⟨h2, h3, h4⟩ := h2; rw [h2, h3, h4]; simp
    | running datas =>
      obtain ⟨hd, ds, k, h2, h3, h4, -⟩ := h2
      rw [h2, h3, h4]
      simp
      omega
  rw [asks_answers hf.lawful hct] at h1
  have h2 : (clientAnswers (clientItems T)).countP Answer.isContinue ≤ ((serverItems T).filterMap SItem.op?).countP ServerOp.isContinue := by
    refine Nat.le_trans ?_ (answers_calls _)
    rw [ht.answers, List.countP_append]
    omega
  have h3 : (programCalls (sessionServer R)).length ≤ (serverHeard (serverItems T)).length := by
    have := (C67_authenticate hf.lawful hE hr.server).2.2.2.1.1
    rw [← this, ← hob.heard]
    have e : (programEvents (sessionServer R)).filterMap ServerEvent.ask? =
        ((programEvents (sessionServer R)).filterMap ServerEvent.heard?).filterMap ServerEvent.ask? := by
      rw [List.filterMap_filterMap]
      exact filterMap_congr' fun e _ => by cases e <;> rfl
    rw [e]
    exact List.length_filterMap_le _ _
  have h4 : (serverHeard (serverItems T)).length ≤ 2 + ((clientItems T).filterMap CItem.data?).length := by
    have := ClientView.said_length (clientItems T)
    rw [ht.core.said, List.length_append] at this
    have h5 : (clientEnqueued (clientItems T)).length ≤ 1 := by
      rcases hs.command with h | ⟨x, h, -⟩ <;> rw [h] <;> simp
    omega
  rw [← hob.serverCalls] at h2
  rw [hob.clientCalls]
  omega

end

/-! ## The coin -/

/-- With `false` the server does not ask for more. -/
theorem Examples.serverAuthenticate_false {w w' : Examples.AuthServerVars} {st st' : Server} {e : ServerEvent} {calls : List ServerOp}
    {k : ControlFlow} (h : (Examples.serverAuthenticate L).event w st e false = .ok (w', st', calls, k)) : calls.countP ServerOp.isContinue = 0 := by
  cases w with
  | greeting =>
    simp only [Examples.serverAuthenticate] at h
    split at h <;> cases h <;> rfl
  | running cur =>
    simp only [Examples.serverAuthenticate] at h
    repeat' split at h
    all_goals first | contradiction | (cases h; done) | (cases h; rfl)

/-- With `true` the server does not finish. -/
theorem Examples.serverAuthenticate_true {w w' : Examples.AuthServerVars} {st st' : Server} {e : ServerEvent} {calls : List ServerOp}
    {k : ControlFlow} (h : (Examples.serverAuthenticate L).event w st e true = .ok (w', st', calls, k)) : ∀ st, .authenticateFinish st ∉ calls := by
  cases w with
  | greeting =>
    simp only [Examples.serverAuthenticate] at h
    split at h <;> cases h <;> simp
  | running cur =>
    simp only [Examples.serverAuthenticate] at h
    repeat' split at h
    all_goals first | contradiction | (cases h; done) | (cases h; simp; done)

/-- What a server that only reads its connection calls in one step. -/
theorem Session.step_calls {σ τ : Type} {P : Program σ Client ClientEvent ClientOp} {P' : Program τ Server ServerEvent ServerOp}
    (h2 : ∀ v c text, P'.line v c text = none) {s s' : Session K σ τ} {a : SessionAct} {R' : List SessionItem}
    (h : s.step L P P' a = some (s', R')) : programCalls (sessionServer R') = [] ∨
      ∃ act coin w st e w' st' k, a = .server act coin ∧ P'.event w st e coin = .ok (w', st', programCalls (sessionServer R'), k) := by
  have cl : ∀ {act rest}, s.clientDoes L P act rest = some (s', R') → programCalls (sessionServer R') = [] := by
    intro act rest hx
    obtain ⟨x, items, h1, rfl, rfl⟩ := Session.clientDoes_cases hx
    rw [(sessionClient_client items).2]
    rfl
  cases a with
  | client act =>
    simp only [Session.step] at h
    split at h
    · exact .inl (cl h)
    · cases h
  | clientLine text => exact .inl (cl h)
  | server act coin =>
    simp only [Session.step] at h
    split at h
    · obtain ⟨x, items, h1, rfl, rfl⟩ := Session.serverDoes_cases h
      rw [(sessionServer_server items).1]
      cases hs : s.server with
      | running w d =>
        rw [hs] at h1
        rcases Program.step_calls h1 with h3 | ⟨st, e, w', st', k, h3⟩
        · exact .inl h3
        · exact .inr ⟨act, coin, w, st, e, w', st', k, rfl, h3⟩
      | over => rw [hs] at h1; cases h1
      | dead => rw [hs] at h1; cases h1
    · cases h
  | serverLine text =>
    obtain ⟨x, items, h1, -⟩ := Session.serverDoes_cases h
    cases hs : s.server with
    | running w d => rw [hs] at h1; simp only [Program.step, h2] at h1; cases h1
    | over => rw [hs] at h1; cases h1
    | dead => rw [hs] at h1; cases h1

/-! ## The end -/

section
variable {σ τ : Type} {P : Program σ Client ClientEvent ClientOp} {P' : Program τ Server ServerEvent ServerOp}
  {I : σ → List CItem → Prop} {Q : List CItem → Prop} {J : τ → List SItem → Prop} {gr : Greeting} {ok : ServerEvent → Prop}

theorem Ended.together (hf : Fitting L gc gs os gr P P' I Q J ok) {s : Session K σ τ} {R : List SessionItem} {c : FullStream K Client}
    {w : τ} {d : FullStream K Server} {G : List StreamNetItem} {n : Net} {T : List NItem}
    (h : Ended L gc gs os gr Q J s R c w d G n T) : ∃ D fl, Together L os gr (clientItems T) (serverItems T) D fl :=
  (Net.run_linked h.link.net).together hf.lawful hf.built
    (Net.Linked.understood hf.lawful hf.built hf.size h.link.net h.clear (hf.ended h.inv) (hf.orderly h.inv')) hf.size (hf.ended h.inv)
    (hf.orderly h.inv') (P := T) (Q := []) (by simp)

end

/-- AUTHENTICATE ends with its tagged response. -/
theorem ClientView.route_finished {v : ClientView} {r : Response} {hd : RawHandle} {ca : CommandAuthenticate} {st : Status}
    (h : v.route r = some (.authenticateStatusReceived hd ca st)) :
    ∃ cmd body, v.current = some (hd, cmd) ∧ st = .tagged cmd.tag body := by
  unfold ClientView.route at h
  split at h
  · cases h
  · split at h
    · rename_i hd' cmd tag body hc
      split at h
      · rename_i ht
        split at h
        · split at h <;> cases h
        · cases h
          exact ⟨cmd, body, hc, by rw [ht]⟩
        · cases h
      · cases h
    · cases h
  · split at h
    · cases h
    · repeat' split at h
      all_goals cases h

theorem Client.finished_tag (hL : L.Lawful) {g : HandleGenerator} {o : ClientOptions} {ops : List ClientOp} {c : Client}
    {A : List CItem} {i : CItem} {hd : RawHandle} {ca : CommandAuthenticate} {st : Status}
    (h : (Client.new g o).trace L ops = .ok (c, A ++ [i])) (hi : i.event? = some (.authenticateStatusReceived hd ca st)) :
    ∃ cmd body, (hd, cmd) ∈ (clientGist A).enqueued ∧ st = .tagged cmd.tag body := by
  have hg := Client.trace_guard hL (T2 := []) h
  cases i <;> cases hi
  · obtain ⟨-, hd, cmd, q, -, h3⟩ := hg
    rcases h3 with ⟨h3, -⟩ | ⟨h3, -⟩ | ⟨h3, -⟩ | ⟨h3, -⟩ <;> cases h3
  · obtain ⟨-, -, ⟨-, g, h1, -⟩ | ⟨-, r, h2, -⟩⟩ := hg
    · cases h1
    · obtain ⟨cmd, body, h3, h4⟩ := ClientView.route_finished h2
      obtain ⟨q, hq⟩ := ClientView.remaining_of_current h3
      refine ⟨cmd, body, List.mem_of_mem_drop (i := (ClientView.of A).ended.length) ?_, h4⟩
      show (hd, cmd) ∈ (ClientView.of A).remaining
      rw [hq]
      exact List.mem_cons_self

/-- The answer that is given with a call. -/
def ServerOp.answer? : ServerOp → Option Answer
  | .authenticateContinue q => some (.authenticateContinue q)
  | .authenticateFinish st => some (.authenticateFinish st)
  | _ => none

/-- The call with which an answer is given. -/
def Answer.op : Answer → ServerOp
  | .authenticateContinue q => .authenticateContinue q
  | .authenticateFinish st => .authenticateFinish st
  | .idleAccept q => .idleAccept q
  | .idleReject st => .idleReject st

section
variable {bodies : List StatusBody} {requests : List Text} {told : List Data}

theorem answers_ops {S : List SItem} (h : Shapely (Words L bodies requests told) S) (hn : ∀ op ∈ S.filterMap SItem.op?, op.notIdle = true) :
    serverAnswers S = (S.filterMap SItem.op?).filterMap ServerOp.answer? := by
  unfold serverAnswers
  rw [List.filterMap_filterMap]
  refine filterMap_congr' fun i hi => ?_
  have h1 := (h i hi).1
  have h2 : ∀ op, i.op? = some op → op.notIdle = true := fun op ho => hn op (List.mem_filterMap.2 ⟨i, hi, ho⟩)
  cases i with
  | authContinue q r => obtain ⟨x, rfl⟩ := (h1 (by simp [SItem.op?])).2; rfl
  | authFinish st r => obtain ⟨x, rfl⟩ := (h1 (by simp [SItem.op?])).2; rfl
  | idleAccept q r => exact absurd (h2 _ rfl) (by simp [ServerOp.notIdle])
  | idleReject q r => exact absurd (h2 _ rfl) (by simp [ServerOp.notIdle])
  | enqueue hd r => cases r <;> rfl
  | _ => rfl

end

theorem asks_heard (E : List ServerEvent) :
    E.filterMap ServerEvent.ask? = (E.filterMap ServerEvent.heard?).filterMap ServerEvent.ask? := by
  rw [List.filterMap_filterMap]
  exact filterMap_congr' fun e _ => by cases e <;> rfl

theorem asks_datas (ds : List AuthenticateData) :
    (ds.map ServerEvent.authenticateDataReceived).filterMap ServerEvent.ask? = List.replicate ds.length .authenticate := by
  induction ds with
  | nil => rfl
  | cons a ds ih => simp only [List.map_cons, List.filterMap_cons, ServerEvent.ask?, ih, List.length_cons, List.replicate_succ]

theorem ops_back {ops : List ServerOp}
    (h : ∀ op ∈ ops, (∃ q, op = .authenticateContinue q) ∨ ∃ st, op = .authenticateFinish st) :
    (ops.filterMap ServerOp.answer?).map Answer.op = ops := by
  induction ops with
  | nil => rfl
  | cons op ops ih =>
    have ih := ih fun x hx => h x (List.mem_cons_of_mem _ hx)
    rcases h op List.mem_cons_self with ⟨q, rfl⟩ | ⟨st, rfl⟩
    · simp only [List.filterMap_cons, ServerOp.answer?, List.map_cons, Answer.op, ih]
    · simp only [List.filterMap_cons, ServerOp.answer?, List.map_cons, Answer.op, ih]

theorem continues_of {X : List Answer} (h : ∀ a ∈ X, ∃ q, a = .authenticateContinue q) :
    ∃ qs : List ContinuationRequest, X = qs.map .authenticateContinue := by
  induction X with
  | nil => exact ⟨[], rfl⟩
  | cons a X ih =>
    obtain ⟨qs, rfl⟩ := ih fun x hx => h x (List.mem_cons_of_mem _ hx)
    obtain ⟨q, rfl⟩ := h a List.mem_cons_self
    exact ⟨q :: qs, rfl⟩

theorem take_replicate {α : Type} {l ds : List α} {x : α} {k : Nat} (h : ds = (l ++ List.replicate k x).take ds.length)
    (hk : ds.length ≤ k) : ds = (l ++ List.replicate ds.length x).take ds.length := by
  rw [List.take_append, List.take_replicate] at h ⊢
  rw [show min (ds.length - l.length) ds.length = min (ds.length - l.length) k by omega]
  exact h

section
variable {s : Session K Examples.AuthVars Examples.AuthServerVars} {R : List SessionItem}
  {c : FullStream K Client} {w : Examples.AuthServerVars} {d : FullStream K Server} {G : List StreamNetItem} {n : Net} {T : List NItem}
  {as : List SessionAct}

/-- What happened when the client has ended. -/
theorem auth_over (hE : L.Exemplary)
    (hf : Fitting L gc gs os idleGreeting (Examples.clientAuthenticate L tag) (Examples.serverAuthenticate L)
      (Examples.AuthInv tag) (Examples.AuthOver tag) (AuthServer L) (Saying [Examples.authCommand tag]))
    (hr : SessionRuns L gc gs Examples.serverIdleText (Examples.clientAuthenticate L tag) (Examples.serverAuthenticate L) as s R)
    (h : Ended L gc gs os idleGreeting (Examples.AuthOver tag) (AuthServer L) s R c w d G n T) :
    ∃ (ds : List AuthenticateData) (qs : List ContinuationRequest) (text : Text),
      ds = (Examples.authDatas ++ List.replicate ds.length AuthenticateData.cancel).take ds.length ∧ qs.length = ds.length ∧
      programCalls (sessionClient R) = .enqueueCommand (Examples.authCommand tag) :: ds.map .setAuthenticateData ∧
      (programEvents (sessionServer R)).filterMap ServerEvent.heard? =
        .commandAuthenticateReceived { tag, mechanism := .login, initialResponse := none } :: ds.map .authenticateDataReceived ∧
      programCalls (sessionServer R) =
        qs.map .authenticateContinue ++ [.authenticateFinish (.tagged tag { kind := .ok, code := none, text })] ∧
      (programEvents (sessionClient R)).filterMap ClientEvent.answer? =
        qs.map .authenticateContinue ++ [.authenticateFinish (.tagged tag { kind := .ok, code := none, text })] := by
  have hob := h.link.observed hf.lawful hf.built
  obtain ⟨D, fl, ht⟩ := h.together hf
  obtain ⟨cops, hct⟩ := (Net.run_linked h.link.net).client
  obtain ⟨A', i, datas, hd, ca, st, hA, hi, hdata, hd', ds, k, hg', hop, -, -, hds, hk⟩ := h.inv
  have hdata' : (clientItems T).filterMap CItem.data? = ds := by
    rw [hA, List.filterMap_append, List.filterMap_cons, data_event hi, hdata, hg']; simp
  have hop' : (clientItems T).filterMap CItem.op? = .enqueueCommand (Examples.authCommand tag) :: ds.map .setAuthenticateData := by
    rw [hA, List.filterMap_append, List.filterMap_cons, op_event hi, hop]; simp
  have hg : clientGist (clientItems T) = ⟨true, [(hd', Examples.authCommand tag)], [.authenticateStatusReceived hd ca st], 0, []⟩ := by
    rw [hA, clientGist_event hi, hg']; rfl
  have g1 : (ClientView.of (clientItems T)).enqueued = [(hd', Examples.authCommand tag)] := congrArg ClientGist.enqueued hg
  have g2 : (ClientView.of (clientItems T)).ended.map ClientEnded.event = [.authenticateStatusReceived hd ca st] :=
    congrArg ClientGist.ended hg
  have g4 : (ClientView.of (clientItems T)).datas = [] := congrArg ClientGist.datas hg
  obtain ⟨en, hen, hene⟩ : ∃ en, (ClientView.of (clientItems T)).ended = [en] ∧ en.event = .authenticateStatusReceived hd ca st := by
    cases hx : (ClientView.of (clientItems T)).ended with
    | nil => rw [hx] at g2; cases g2
    | cons en rest =>
      rw [hx] at g2
      simp only [List.map_cons, List.cons.injEq, List.map_eq_nil_iff] at g2
      exact ⟨en, by rw [g2.2], g2.1⟩
  have hcur : (ClientView.of (clientItems T)).current = none := by
    cases hx : (ClientView.of (clientItems T)).current with
    | none => rfl
    | some x =>
      obtain ⟨q, hq⟩ := ClientView.remaining_of_current hx
      rw [ClientView.remaining, g1, hen] at hq
      cases hq
  have hend : en.datas = ds := by
    have := ClientView.of_datas (clientItems T)
    rw [hdata', hen, g4] at this
    simpa using this
  have hsaid : (ClientView.of (clientItems T)).said =
      .commandAuthenticateReceived { tag, mechanism := .login, initialResponse := none } :: ds.map .authenticateDataReceived := by
    unfold ClientView.said
    rw [hcur, g1, hen]
    simp only [List.zip_cons_cons, List.zip_nil_right, List.flatMap_cons, List.flatMap_nil, saidEnded, hene, hend]
    simp [Examples.authCommand, Command.event]
  have hD : D = [] ∧ fl = none := by
    have hj := ht.core.joint
    have hmem : ∀ e ∈ D, e ∈ (ClientView.of (clientItems T)).said := fun e he => by
      rw [ht.core.said]; exact List.mem_append_right _ he
    have hno : ∀ e ∈ D, (∃ x, e = .commandReceived x) ∨ e = .idleDoneReceived → False := by
      intro e he hx
      have := hmem e he
      rw [hsaid] at this
      rcases List.mem_cons.1 this with rfl | this
      · rcases hx with ⟨x, hx⟩ | hx <;> cases hx
      · obtain ⟨a, -, rfl⟩ := List.mem_map.1 this
        rcases hx with ⟨x, hx⟩ | hx <;> cases hx
    cases hj with
    | fresh h1 h2 =>
      refine ⟨?_, rfl⟩
      rcases h2 with ⟨-, -, h2⟩ | ⟨-, t, D', -, -, rfl, -⟩
      · cases D with
        | nil => rfl
        | cons e D =>
          obtain ⟨x, -, hx⟩ := h2 e List.mem_cons_self
          exact (hno e List.mem_cons_self (.inl ⟨x, hx⟩)).elim
      · exact (hno _ List.mem_cons_self (.inr rfl)).elim
    | saying x h1 => rw [hcur] at h1; cases h1
    | literal x h1 => rw [hcur] at h1; cases h1
    | heard x h1 => rw [hcur] at h1; cases h1
    | authTalk x h1 => rw [hcur] at h1; cases h1
    | authContinue x q h1 => rw [hcur] at h1; cases h1
    | authFinish x q h1 => rw [hcur] at h1; cases h1
    | idlePending x h1 => rw [hcur] at h1; cases h1
    | idleAccept x q h1 => rw [hcur] at h1; cases h1
    | idleReject x q h1 => rw [hcur] at h1; cases h1
    | idleOn x h1 => rw [hcur] at h1; cases h1
    | idleDone x h1 => rw [hcur] at h1; cases h1
  obtain ⟨rfl, rfl⟩ := hD
  have hheard : serverHeard (serverItems T) =
      .commandAuthenticateReceived { tag, mechanism := .login, initialResponse := none } :: ds.map .authenticateDataReceived := by
    rw [← hsaid, ht.core.said, List.append_nil]
  have hans : serverAnswers (serverItems T) = clientAnswers (clientItems T) := by
    rw [ht.answers]; simp [flightAnswers]
  -- the answers
  have hX : clientAnswers (clientItems T) = (A'.filterMap CItem.event?).filterMap ClientEvent.answer? ++ [.authenticateFinish st] := by
    rw [← Client.answer_events hf.lawful hct, hA, List.filterMap_append, List.filterMap_append, List.filterMap_cons, hi]
    rfl
  have hXno : ∀ st', Answer.authenticateFinish st' ∉ (A'.filterMap CItem.event?).filterMap ClientEvent.answer? := by
    intro st' hm
    obtain ⟨e, he, hea⟩ := List.mem_filterMap.1 hm
    have hte : e.isTerminal = true := by cases e <;> first | rfl | cases hea
    obtain ⟨j, hj, hje⟩ := List.mem_filterMap.1 he
    have : e ∈ clientTerminals A' := List.mem_filterMap.2 ⟨j, hj, by unfold CItem.terminal?; rw [hje]; simp [hte]⟩
    rw [← (ClientView.of_fields A').2.2.2.1, show (ClientView.of A').ended.map ClientEnded.event = [] from congrArg ClientGist.ended hg'] at this
    cases this
  -- the calls of the server
  have hops : (serverItems T).filterMap SItem.op? = programCalls (sessionServer R) := hob.serverCalls.symm
  obtain ⟨hlen, hall⟩ := (C67_authenticate hf.lawful hE hr.server).2.2.2.1
  rw [asks_heard, hob.heard, hheard] at hlen hall
  have hasks : (ServerEvent.commandAuthenticateReceived { tag, mechanism := .login, initialResponse := none } ::
      ds.map ServerEvent.authenticateDataReceived).filterMap ServerEvent.ask? = List.replicate (ds.length + 1) .authenticate := by
    rw [List.filterMap_cons]
    simp only [ServerEvent.ask?, List.replicate_succ, asks_datas]
  rw [hasks] at hlen hall
  have hshape : ∀ op ∈ programCalls (sessionServer R), (∃ q, op = .authenticateContinue q) ∨
      ∃ t text, op = .authenticateFinish (.tagged t { kind := .ok, code := none, text }) := by
    intro op hop
    obtain ⟨j, hj, rfl⟩ := List.getElem_of_mem hop
    have hz : (ServerAsk.authenticate, (programCalls (sessionServer R))[j]) ∈
        (List.replicate (ds.length + 1) ServerAsk.authenticate).zip (programCalls (sessionServer R)) := by
      have hj' : j < ((List.replicate (ds.length + 1) ServerAsk.authenticate).zip (programCalls (sessionServer R))).length := by
        rw [List.length_zip]; omega
      have := List.getElem_mem hj'
      rw [List.getElem_zip, List.getElem_replicate] at this
      exact this
    rcases hall _ hz with ⟨text, h1⟩ | h1
    · exact .inl ⟨_, h1⟩
    · exact .inr h1
  have hsa : clientAnswers (clientItems T) = (programCalls (sessionServer R)).filterMap ServerOp.answer? := by
    rw [← hans, answers_ops h.inv'.2 h.inv'.1.1.2, hops]
  have hback : (clientAnswers (clientItems T)).map Answer.op = programCalls (sessionServer R) := by
    rw [hsa]
    exact ops_back fun op hop => (hshape op hop).imp id fun ⟨t, text, h⟩ => ⟨_, h⟩
  obtain ⟨qs, hqs⟩ : ∃ qs : List ContinuationRequest, (A'.filterMap CItem.event?).filterMap ClientEvent.answer? = qs.map .authenticateContinue := by
    have hsub : ∀ a ∈ (A'.filterMap CItem.event?).filterMap ClientEvent.answer?, ∃ q, a = .authenticateContinue q := by
      intro a ha
      have : a ∈ clientAnswers (clientItems T) := by rw [hX]; exact List.mem_append_left _ ha
      rw [hsa] at this
      obtain ⟨op, hop, hoa⟩ := List.mem_filterMap.1 this
      rcases hshape op hop with ⟨q, rfl⟩ | ⟨t, text, rfl⟩
      · cases hoa; exact ⟨q, rfl⟩
      · cases hoa; exact (hXno _ ha).elim
    exact continues_of hsub
  rw [hqs] at hX
  have hcalls : programCalls (sessionServer R) = qs.map .authenticateContinue ++ [.authenticateFinish st] := by
    rw [← hback, hX, List.map_append, List.map_map]
    rfl
  obtain ⟨t, text, hst⟩ : ∃ t text, st = .tagged t { kind := .ok, code := none, text } := by
    rcases hshape (.authenticateFinish st) (by rw [hcalls]; simp) with ⟨q, h1⟩ | ⟨t, text, h1⟩
    · cases h1
    · cases h1; exact ⟨t, text, rfl⟩
  have htag : t = tag := by
    rw [hA] at hct
    obtain ⟨cmd, body, h1, h2⟩ := Client.finished_tag hf.lawful hct hi
    rw [hg'] at h1
    cases List.mem_singleton.1 h1
    rw [hst] at h2
    cases h2
    rfl
  subst htag
  subst hst
  refine ⟨ds, qs, text, take_replicate hds hk, ?_, by rw [hob.clientCalls, hop'], by rw [hob.heard, hheard], hcalls, by rw [hob.answers, hX]⟩
  rw [hcalls] at hlen
  simpa using hlen.symm

end

end ImapFlow
