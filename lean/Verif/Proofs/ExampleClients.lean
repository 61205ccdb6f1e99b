import Verif.Proofs.ExampleSteps
import Verif.Proofs.ProxyEvents

/-!
# Invariants of the example clients
-/

namespace ImapFlow

variable {L : Lib}

/-- What matters of the view for the example programs. -/
structure ClientGist where
  greeted : Bool
  enqueued : List (RawHandle × Command)
  ended : List ClientEvent
  asked : Nat
  datas : List AuthenticateData

namespace ClientGist

/-- After an event. -/
def event (v : ClientGist) (e : ClientEvent) : ClientGist :=
  if e.isTerminal then { v with ended := v.ended ++ [e], asked := 0, datas := [] }
  else
    match e with
    | .greetingReceived _ => { v with greeted := true }
    | .authenticateContinuationRequestReceived .. => { v with asked := v.asked + 1 }
    | _ => v

theorem event_enqueued (v : ClientGist) (e : ClientEvent) : (v.event e).enqueued = v.enqueued := by
  unfold event
  split
  · rfl
  · split <;> rfl

theorem event_greeted {v : ClientGist} (h : v.greeted = true) (e : ClientEvent) : (v.event e).greeted = true := by
  unfold event
  split
  · exact h
  · split <;> first | rfl | exact h

end ClientGist

def ClientView.gist (v : ClientView) : ClientGist :=
  { greeted := v.greeted, enqueued := v.enqueued, ended := v.ended.map ClientEnded.event, asked := v.asked, datas := v.datas }

/-- The gist of a trace. -/
def clientGist (A : List CItem) : ClientGist := (ClientView.of A).gist

theorem clientGist_nil : clientGist [] = ⟨false, [], [], 0, []⟩ := rfl

theorem clientGist_silent {A : List CItem} {i : CItem} (h : i.Silent) : clientGist (A ++ [i]) = clientGist A := by
  unfold clientGist
  rw [ClientView.of_snoc]
  cases i <;> first | rfl | exact h.elim

theorem ClientView.gist_event (v : ClientView) (e : ClientEvent) : (v.event e).gist = v.gist.event e := by
  unfold ClientView.event ClientGist.event
  split
  · simp [ClientView.gist, ClientView.terminate]
  · cases e <;> rfl

theorem clientGist_event {A : List CItem} {i : CItem} {e : ClientEvent} (h : i.event? = some e) :
    clientGist (A ++ [i]) = (clientGist A).event e := by
  unfold clientGist
  rw [ClientView.of_snoc]
  cases i <;> cases h
  · exact ClientView.gist_event _ _
  · exact ClientView.gist_event _ _

theorem data_silent {i : CItem} (h : i.Silent) : i.data? = none := by
  cases i <;> first | rfl | exact h.elim

theorem op_silent {i : CItem} (h : i.Silent) : i.op? = none := by
  cases i <;> first | rfl | exact h.elim

theorem op_event {i : CItem} {e : ClientEvent} (h : i.event? = some e) : i.op? = none := by
  cases i <;> first | rfl | cases h

theorem event_silent {i : CItem} (h : i.Silent) : i.event? = none := by
  cases i <;> first | rfl | exact h.elim

theorem data_event {i : CItem} {e : ClientEvent} (h : i.event? = some e) : i.data? = none := by
  cases i <;> first | rfl | cases h

/-- Which event can follow. -/
theorem Client.event_cases (hL : L.Lawful) {g : HandleGenerator} {o : ClientOptions} {ops : List ClientOp} {c : Client}
    {A B : List CItem} {i : CItem} {e : ClientEvent} (h : (Client.new g o).trace L ops = .ok (c, A ++ i :: B))
    (hi : i.event? = some e) :
    ((clientGist A).greeted = false ∧ ∃ g, e = .greetingReceived g) ∨
    ((clientGist A).greeted = true ∧
      ((∃ d, e = .dataReceived d) ∨ (∃ st, e = .statusReceived st) ∨ (∃ q, e = .continuationRequestReceived q) ∨
       ∃ hd cmd q, (clientGist A).enqueued.drop (clientGist A).ended.length = (hd, cmd) :: q ∧
        ((cmd.isRegular = true ∧ (e = .commandSent hd cmd ∨ ∃ st, e = .commandRejected hd cmd st)) ∨
         (cmd.isAuthenticate = true ∧ (e = .authenticateStarted hd ∨ (∃ ca st, e = .authenticateStatusReceived hd ca st) ∨
          ∃ r, e = .authenticateContinuationRequestReceived hd r ∧ (clientGist A).asked = (clientGist A).datas.length ∧
            (ClientView.of (A ++ [i])).current = some (hd, cmd))) ∨
         (cmd.isIdle = true ∧ (e = .idleCommandSent hd ∨ (∃ st, e = .idleRejected hd st) ∨ e = .idleDoneSent hd ∨
          ∃ r, e = .idleAccepted hd r))))) := by
  have hg := Client.trace_guard hL h
  have rem : (clientGist A).enqueued.drop (clientGist A).ended.length = (ClientView.of A).remaining := by
    simp [clientGist, ClientView.gist, ClientView.remaining]
  rw [rem]
  cases i <;> cases hi
  · obtain ⟨h1, hd, cmd, q, h2, h3⟩ := hg
    refine .inr ⟨h1, .inr (.inr (.inr ⟨hd, cmd, q, h2, ?_⟩))⟩
    rcases h3 with ⟨rfl, h3, -⟩ | ⟨rfl, h3, -⟩ | ⟨rfl, h3, -⟩ | ⟨rfl, h3, -⟩
    · exact .inl ⟨h3, .inl rfl⟩
    · exact .inr (.inl ⟨h3, .inl rfl⟩)
    · exact .inr (.inr ⟨h3, .inl rfl⟩)
    · exact .inr (.inr ⟨h3, .inr (.inr (.inl rfl))⟩)
  · rename_i w
    obtain ⟨-, -, ⟨h1, g, rfl, -⟩ | ⟨h1, r, h2, -⟩⟩ := hg
    · exact .inl ⟨h1, g, rfl⟩
    · refine .inr ⟨h1, ?_⟩
      rcases ClientView.route_cases h2 with h3 | h3 | ⟨q, -, h3⟩ | ⟨hd, cmd, hc, h3⟩
      · exact .inl h3
      · exact .inr (.inl h3)
      · exact .inr (.inr (.inl ⟨q, h3⟩))
      · have hc' := hc
        unfold ClientView.current at hc
        split at hc
        · cases hc
        · cases hr : (ClientView.of A).remaining with
          | nil => rw [hr] at hc; cases hc
          | cons x q =>
            rw [hr] at hc
            cases hc
            refine .inr (.inr (.inr ⟨hd, cmd, q, rfl, ?_⟩))
            rcases h3 with ⟨st, rfl, h3⟩ | ⟨ca, st, rfl, h3⟩ | ⟨st, rfl, h3⟩ | ⟨r, rfl, h3, h4⟩ | ⟨r, rfl, h3, -⟩
            · exact .inl ⟨h3, .inr ⟨st, rfl⟩⟩
            · exact .inr (.inl ⟨h3, .inr (.inl ⟨ca, st, rfl⟩)⟩)
            · exact .inr (.inr ⟨h3, .inr (.inl ⟨st, rfl⟩)⟩)
            · refine .inr (.inl ⟨h3, .inr (.inr ⟨r, rfl, h4, ?_⟩)⟩)
              rw [ClientView.of_snoc]
              exact hc'
            · exact .inr (.inr ⟨h3, .inr (.inr (.inr ⟨r, rfl⟩))⟩)

/-- IDLE is rejected by its tagged response. -/
theorem ClientView.route_rejected {v : ClientView} {r : Response} {hd : RawHandle} {st : Status}
    (h : v.route r = some (.idleRejected hd st)) : ∃ cmd body, v.current = some (hd, cmd) ∧ st = .tagged cmd.tag body := by
  unfold ClientView.route at h
  split at h
  · cases h
  · split at h
    · rename_i hd' cmd tag body hc
      split at h
      · rename_i ht
        split at h
        · split at h <;> cases h
        · cases h
        · cases h
          exact ⟨cmd, body, hc, by rw [ht]⟩
      · cases h
    · cases h
  · split at h
    · cases h
    · repeat' split at h
      all_goals cases h

theorem Client.rejected_tag (hL : L.Lawful) {g : HandleGenerator} {o : ClientOptions} {ops : List ClientOp} {c : Client}
    {A : List CItem} {i : CItem} {hd : RawHandle} {st : Status} (h : (Client.new g o).trace L ops = .ok (c, A ++ [i]))
    (hi : i.event? = some (.idleRejected hd st)) :
    ∃ cmd body, (hd, cmd) ∈ (clientGist A).enqueued ∧ st = .tagged cmd.tag body := by
  have hg := Client.trace_guard hL (T2 := []) h
  cases i <;> cases hi
  · obtain ⟨-, hd, cmd, q, -, h3⟩ := hg
    rcases h3 with ⟨h3, -⟩ | ⟨h3, -⟩ | ⟨h3, -⟩ | ⟨h3, -⟩ <;> cases h3
  · obtain ⟨-, -, ⟨-, g, h1, -⟩ | ⟨-, r, h2, -⟩⟩ := hg
    · cases h1
    · obtain ⟨cmd, body, h3, h4⟩ := ClientView.route_rejected h2
      refine ⟨cmd, body, ?_, h4⟩
      unfold ClientView.current at h3
      split at h3
      · cases h3
      · exact List.mem_of_mem_drop (List.mem_of_mem_head? (Option.mem_def.2 h3))

/-- The greeting is reported first, and only once. -/
theorem Client.greeting_first (hL : L.Lawful) {g : HandleGenerator} {o : ClientOptions} {ops : List ClientOp} {c : Client}
    {A B : List CItem} (h : (Client.new g o).trace L ops = .ok (c, A ++ B)) :
    ((clientGist A).greeted = true ↔ A.filterMap CItem.event? ≠ []) ∧ GreetedFirst (A.filterMap CItem.event?) := by
  induction A using snocInduction generalizing B with
  | nil => exact ⟨by simp [clientGist_nil], fun es1 e es2 h => by simp at h⟩
  | snoc A i ih =>
    rw [List.append_assoc] at h
    obtain ⟨h1, h2⟩ := ih h
    cases hi : i.event? with
    | none =>
      have hg : (clientGist (A ++ [i])).greeted = (clientGist A).greeted := by
        unfold clientGist
        rw [ClientView.of_snoc]
        cases i with
        | setAuth d r => cases r <;> rfl
        | setDone r => cases r <;> rfl
        | _ => first | rfl | cases hi
      simp only [hg, List.filterMap_append, List.filterMap_cons, hi, List.filterMap_nil, List.append_nil]
      exact ⟨h1, h2⟩
    | some e =>
      simp only [clientGist_event hi, List.filterMap_append, List.filterMap_cons, hi, List.filterMap_nil]
      rcases Client.event_cases hL h hi with ⟨h3, gr, rfl⟩ | ⟨h3, h4⟩
      · have he : A.filterMap CItem.event? = [] := Classical.byContradiction fun hn => by
          rw [h1.2 hn] at h3; cases h3
        rw [he]
        refine ⟨by simp [ClientGist.event, ClientEvent.isTerminal], fun es1 e es2 hx => ?_⟩
        cases es1 with
        | nil =>
          simp only [List.nil_append, List.cons.injEq] at hx
          exact ⟨fun _ => rfl, fun _ => ⟨gr, hx.1.symm⟩⟩
        | cons x es1 => simp at hx
      · have hn : ∀ g, e ≠ .greetingReceived g := by
          rcases h4 with ⟨d, rfl⟩ | ⟨st, rfl⟩ | ⟨q, rfl⟩ | ⟨hd', cmd, q, -, h4⟩
          · nofun
          · nofun
          · nofun
          · rcases h4 with ⟨-, rfl | ⟨st, rfl⟩⟩ | ⟨-, rfl | ⟨ca, st, rfl⟩ | ⟨r, rfl, -⟩⟩ |
              ⟨-, rfl | ⟨st, rfl⟩ | rfl | ⟨r, rfl⟩⟩ <;> nofun
        have he := h1.1 h3
        refine ⟨by simp [ClientGist.event_greeted h3], fun es1 e' es2 hx => ?_⟩
        rcases List.append_eq_append_iff.1 hx with ⟨as, h5, h6⟩ | ⟨bs, h5, h6⟩
        · cases as with
          | nil =>
            simp only [List.nil_append, List.cons.injEq] at h6
            obtain ⟨rfl, -⟩ := h6
            rw [h5, List.append_nil]
            exact ⟨fun ⟨g, hg⟩ => (hn g hg).elim, fun hx => (he hx).elim⟩
          | cons x as => simp at h6
        · cases bs with
          | nil =>
            simp only [List.nil_append, List.cons.injEq] at h6
            obtain ⟨rfl, -⟩ := h6
            rw [List.append_nil] at h5
            rw [← h5]
            exact ⟨fun ⟨g, hg⟩ => (hn g hg).elim, fun hx => (he hx).elim⟩
          | cons x bs =>
            simp only [List.cons_append, List.cons.injEq] at h6
            obtain ⟨rfl, -⟩ := h6
            exact h2 es1 _ bs h5

theorem Command.regular_not {c : Command} (h : c.isRegular = true) : c.isAuthenticate = false ∧ c.isIdle = false := by
  obtain ⟨t, b⟩ := c
  cases b <;> first | exact ⟨rfl, rfl⟩ | cases h

theorem Client.Calls.nil (c : Client) : c.Calls L [] c [] := ⟨rfl, .inl rfl⟩

theorem Client.Calls.enqueue (c : Client) (cmd : Command) :
    c.Calls L [.enqueueCommand cmd] (c.enqueueCommand cmd).1 [.enqueue (c.enqueueCommand cmd).2 cmd] :=
  ⟨rfl, .inr ⟨_, rfl, nofun, nofun⟩⟩

theorem clientGist_enqueue (A : List CItem) (hd : RawHandle) (cmd : Command) :
    clientGist (A ++ [.enqueue hd cmd]) = { clientGist A with enqueued := (clientGist A).enqueued ++ [(hd, cmd)] } := by
  unfold clientGist
  rw [ClientView.of_snoc]
  rfl

theorem clientGist_event_enqueue {A : List CItem} {i : CItem} {e : ClientEvent} (h : i.event? = some e) (hd : RawHandle)
    (cmd : Command) : clientGist (A ++ [i, .enqueue hd cmd]) =
      { (clientGist A).event e with enqueued := (clientGist A).enqueued ++ [(hd, cmd)] } := by
  rw [show A ++ [i, .enqueue hd cmd] = (A ++ [i]) ++ [.enqueue hd cmd] from by simp, clientGist_enqueue, clientGist_event h,
    ClientGist.event_enqueued]

theorem clientGist_event_setAuth {A : List CItem} {i : CItem} {e : ClientEvent} (h : i.event? = some e) (hd : RawHandle)
    (d : AuthenticateData) : clientGist (A ++ [i, .setAuth d (.ok hd)]) =
      { (clientGist A).event e with datas := ((clientGist A).event e).datas ++ [d] } := by
  rw [show A ++ [i, .setAuth d (.ok hd)] = (A ++ [i]) ++ [.setAuth d (.ok hd)] from by simp, ← clientGist_event h]
  unfold clientGist
  rw [ClientView.of_snoc]
  rfl

theorem clientGist_setDone (A : List CItem) (r : Option RawHandle) : clientGist (A ++ [.setDone r]) = clientGist A := by
  unfold clientGist
  rw [ClientView.of_snoc]
  cases r <;> rfl

/-- `set_authenticate_data` succeeds if data was asked for. -/
theorem Client.setAuth_ok (hL : L.Lawful) {g : HandleGenerator} {o : ClientOptions} {ops : List ClientOp} {c : Client}
    {A : List CItem} (h : (Client.new g o).trace L ops = .ok (c, A)) {hd : RawHandle} {cmd : Command}
    (hc : (ClientView.of A).current = some (hd, cmd)) (ha : cmd.isAuthenticate = true)
    (hn : (clientGist A).asked = (clientGist A).datas.length + 1) (d : AuthenticateData) :
    ∃ c', c.setAuthenticateData L d = .ok (c', .ok hd) ∧ c.Calls L [.setAuthenticateData d] c' [.setAuth d (.ok hd)] := by
  obtain ⟨x, hx⟩ := Client.trace_safe hL (Client.new_inv L g o) (ops ++ [.setAuthenticateData d])
  rw [Client.trace_append, h] at hx
  cases hs : c.setAuthenticateData L d with
  | error p => simp [Client.trace, Client.callTrace, hs, Except.map] at hx
  | ok y =>
    obtain ⟨c', r⟩ := y
    have ht : c.trace L [.setAuthenticateData d] = .ok (c', [.setAuth d r]) :=
      Client.trace_one (by simp [Client.callTrace, hs, Except.map])
    have hg := Client.trace_guard hL (T2 := []) (Client.trace_join h ht)
    have : (ClientView.of A).authReply d = .ok hd := by
      unfold ClientView.authReply
      rw [hc]
      have : (ClientView.of A).asked = (ClientView.of A).datas.length + 1 := hn
      simp [ha, this]
    have hr : r = .ok hd := hg.trans this
    subst hr
    exact ⟨c', rfl, ht, .inr ⟨_, rfl, nofun, nofun⟩⟩

theorem Client.setDone_any (hL : L.Lawful) {g : HandleGenerator} {o : ClientOptions} {ops : List ClientOp} {c : Client}
    {A : List CItem} (h : (Client.new g o).trace L ops = .ok (c, A)) :
    ∃ c' r, c.setIdleDone L = .ok (c', r) ∧ c.Calls L [.setIdleDone] c' [.setDone r] := by
  obtain ⟨x, hx⟩ := Client.trace_safe hL (Client.new_inv L g o) (ops ++ [.setIdleDone])
  rw [Client.trace_append, h] at hx
  cases hs : c.setIdleDone L with
  | error p => simp [Client.trace, Client.callTrace, hs, Except.map] at hx
  | ok y =>
    obtain ⟨c', r⟩ := y
    exact ⟨c', r, rfl, Client.trace_one (by simp [Client.callTrace, hs, Except.map]), .inr ⟨_, rfl, nofun, nofun⟩⟩

namespace Examples

/-! ## client.rs -/

/-- What holds while `client.rs` awaits an event. -/
def LoginInv (login : Bytes) (vars : LoginVars) (A : List CItem) : Prop :=
  A.filterMap CItem.data? = [] ∧
  match vars with
  | .greeting => (clientGist A).greeted = false ∧ (clientGist A).enqueued = [] ∧ A.filterMap CItem.op? = []
  | .running h => (clientGist A).greeted = true ∧ (clientGist A).enqueued = [(h, loginCommand login)] ∧
      A.filterMap CItem.op? = [.enqueueCommand (loginCommand login)]

theorem client_kept (hL : L.Lawful) (g : HandleGenerator) (login : Bytes) :
    ClientKept L g (client login) (LoginInv login) (fun _ => False) where
  start := ⟨rfl, rfl, rfl, rfl⟩
  silent {v A i B ops c} hI hi _ := by
    unfold LoginInv at hI ⊢
    simp only [clientGist_silent hi, List.filterMap_append, List.filterMap_cons, data_silent hi, op_silent hi]
    simpa using hI
  event {v A i e ops c} coin hI hi h := by
    obtain ⟨hD, hI⟩ := hI
    have hD' : ∀ J, J.filterMap CItem.data? = [] → (A ++ i :: J).filterMap CItem.data? = [] := by
      intro J hJ
      simp [hD, data_event hi, hJ]
    have he := Client.event_cases hL h hi
    cases v with
    | greeting =>
      obtain ⟨h1, h2, hop⟩ := hI
      rcases he with ⟨-, gr, rfl⟩ | ⟨h3, -⟩
      · refine ⟨_, _, _, _, _, rfl, Client.Calls.enqueue c _, fun _ => ⟨hD' _ rfl, ?_⟩, nofun⟩
        rw [clientGist_event_enqueue hi]
        simp only [List.filterMap_append, hop, List.filterMap_cons, op_event hi]
        simp [ClientGist.event, ClientEvent.isTerminal, h2]
        exact ⟨rfl, rfl⟩
      · rw [h1] at h3; cases h3
    | running hd =>
      obtain ⟨h1, h2, hop⟩ := hI
      have stay : ∀ {c' : Client}, LoginInv login (.running hd) (A ++ [i]) := by
        intro c'
        refine ⟨hD' _ rfl, ?_⟩
        rw [clientGist_event hi]
        exact ⟨ClientGist.event_greeted h1 e, by rw [ClientGist.event_enqueued, h2],
          by simpa [op_event hi] using hop⟩
      rcases he with ⟨h3, -⟩ | ⟨-, he⟩
      · rw [h1] at h3; cases h3
      · have none : (client login).event (.running hd) c e coin = .ok (.running hd, c, [], .continue) →
            ∃ v' c' calls flow J, (client login).event (.running hd) c e coin = .ok (v', c', calls, flow) ∧
              c.Calls L calls c' J ∧ (flow = .continue → LoginInv login v' (A ++ i :: J)) ∧ (flow = .abort → False) :=
          fun hx => ⟨_, _, _, _, _, hx, .nil c, fun _ => stay (c' := c), nofun⟩
        rcases he with ⟨d, rfl⟩ | ⟨st, rfl⟩ | ⟨q, rfl⟩ | ⟨hd', cmd, q, h3, h4⟩
        · exact none rfl
        · exact none rfl
        · exact none rfl
        · have hh : hd' = hd := by
            have : (hd', cmd) ∈ (clientGist A).enqueued := List.mem_of_mem_drop (by rw [h3]; simp)
            rw [h2] at this
            simp at this
            exact this.1
          subst hh
          rcases h4 with ⟨-, rfl | ⟨st, rfl⟩⟩ | ⟨-, rfl | ⟨ca, st, rfl⟩ | ⟨r, rfl, -⟩⟩ | ⟨-, rfl | ⟨st, rfl⟩ | rfl | ⟨r, rfl⟩⟩ <;>
            exact none (by simp [client])
  line _ _ h := by cases h

/-! ## client_authenticate.rs -/

/-- A continuation request of AUTHENTICATE is reported. -/
def asks (i : CItem) : Bool :=
  match i.event? with
  | some (.authenticateContinuationRequestReceived ..) => true
  | _ => false

theorem asks_silent {i : CItem} (h : i.Silent) : asks i = false := by simp [asks, event_silent h]

theorem asks_event {i : CItem} {e : ClientEvent} (h : i.event? = some e)
    (he : ∀ hd r, e ≠ .authenticateContinuationRequestReceived hd r) : asks i = false := by
  unfold asks
  rw [h]
  split
  · rename_i h; cases h; exact (he _ _ rfl).elim
  · rfl

/-- What holds while `client_authenticate.rs` awaits an event. -/
def AuthInv (tag : Tag) (vars : AuthVars) (A : List CItem) : Prop :=
  A.filterMap CItem.data? = (clientGist A).datas ∧
  match vars with
  | .greeting => clientGist A = ⟨false, [], [], 0, []⟩ ∧ A.filterMap CItem.op? = [] ∧ A.countP asks = 0
  | .running datas => ∃ h ds k, clientGist A = ⟨true, [(h, authCommand tag)], [], ds.length, ds⟩ ∧
      A.filterMap CItem.op? = .enqueueCommand (authCommand tag) :: ds.map .setAuthenticateData ∧ A.countP asks = ds.length ∧
      datas = authDatas.drop ds.length ∧ ds = (authDatas ++ List.replicate k AuthenticateData.cancel).take ds.length ∧
      ds.length ≤ k

/-- What holds when `client_authenticate.rs` has ended. -/
def AuthOver (tag : Tag) (A : List CItem) : Prop :=
  ∃ A' i datas h ca st, A = A' ++ [i] ∧ i.event? = some (.authenticateStatusReceived h ca st) ∧ AuthInv tag (.running datas) A'

theorem clientAuthenticate_kept (hL : L.Lawful) (g : HandleGenerator) (tag : Tag) :
    ClientKept L g (clientAuthenticate L tag) (AuthInv tag) (AuthOver tag) where
  start := ⟨rfl, rfl, rfl, rfl⟩
  silent {v A i B ops c} hI hi _ := by
    unfold AuthInv at hI ⊢
    simp only [clientGist_silent hi, List.filterMap_append, List.filterMap_cons, data_silent hi, op_silent hi,
      List.countP_append, List.countP_cons, asks_silent hi]
    simpa using hI
  event {v A i e ops c} coin hI hi h := by
    obtain ⟨hD, hI⟩ := hI
    have he := Client.event_cases hL h hi
    cases v with
    | greeting =>
      rcases he with ⟨-, gr, rfl⟩ | ⟨h3, -⟩
      · refine ⟨_, _, _, _, _, rfl, Client.Calls.enqueue c _, fun _ => ?_, nofun⟩
        obtain ⟨hI, hop, has⟩ : clientGist A = ⟨false, [], [], 0, []⟩ ∧ A.filterMap CItem.op? = [] ∧ A.countP asks = 0 := hI
        have hD : A.filterMap CItem.data? = [] := by rw [hD, hI]
        refine ⟨?_, (c.enqueueCommand (authCommand tag)).2, [], 0, ?_, ?_, ?_, rfl, rfl, by simp⟩
        · rw [clientGist_event_enqueue hi, hI]
          simp [ClientGist.event, ClientEvent.isTerminal, hD, data_event hi]
          rfl
        · rw [clientGist_event_enqueue hi, hI]
          simp [ClientGist.event, ClientEvent.isTerminal]
        · simp only [List.filterMap_append, List.filterMap_cons, hop, op_event hi]
          rfl
        · simp only [List.countP_append, List.countP_cons, has, asks_event hi nofun]
          rfl
      · have hI : clientGist A = ⟨false, [], [], 0, []⟩ := hI.1
        rw [hI] at h3; cases h3
    | running datas =>
      have hI0 : AuthInv tag (.running datas) A := ⟨hD, hI⟩
      obtain ⟨hd, ds, k, h1, hop, has, h2, h3, h4⟩ := hI
      rw [h1] at hD he
      rcases he with ⟨h5, -⟩ | ⟨-, he⟩
      · cases h5
      · have none : ∀ {e}, i.event? = some e → (clientAuthenticate L tag).event (.running datas) c e coin =
              .ok (.running datas, c, [], .continue) → (clientGist A).event e = clientGist A →
              (∀ hd r, e ≠ .authenticateContinuationRequestReceived hd r) →
            ∃ v' c' calls flow J, (clientAuthenticate L tag).event (.running datas) c e coin = .ok (v', c', calls, flow) ∧
              c.Calls L calls c' J ∧ (flow = .continue → AuthInv tag v' (A ++ i :: J)) ∧
                (flow = .abort → AuthOver tag (A ++ i :: J)) := by
          intro e hi hx hy hz
          refine ⟨_, _, _, _, _, hx, .nil c, fun _ => ?_, nofun⟩
          unfold AuthInv
          rw [clientGist_event hi, hy, h1]
          exact ⟨by simpa [data_event hi] using hD, hd, ds, k, rfl, by simpa [op_event hi] using hop,
            by simpa [List.countP_cons, asks_event hi hz] using has, h2, h3, h4⟩
        rcases he with ⟨d, rfl⟩ | ⟨st, rfl⟩ | ⟨q, rfl⟩ | ⟨hd', cmd, q, h5, h6⟩
        · exact none hi rfl rfl nofun
        · exact none hi rfl rfl nofun
        · exact none hi rfl rfl nofun
        · simp only [List.length_nil, List.drop_zero, List.cons.injEq, Prod.mk.injEq] at h5
          obtain ⟨⟨rfl, rfl⟩, rfl⟩ := h5
          rcases h6 with ⟨h6, -⟩ | ⟨-, rfl | ⟨ca, st, rfl⟩ | ⟨r, rfl, h7, h8⟩⟩ | ⟨h6, -⟩
          · cases h6
          · exact none hi rfl rfl nofun
          · exact ⟨_, _, _, _, _, rfl, .nil c, nofun, fun _ => ⟨A, i, datas, _, ca, st, rfl, hi, hI0⟩⟩
          · have hg := clientGist_event (A := A) hi
            have hn : (clientGist (A ++ [i])).asked = (clientGist (A ++ [i])).datas.length + 1 := by
              rw [hg, h1]; rfl
            obtain ⟨d, rest, hd1, hd2⟩ : ∃ d rest, (match datas with
                | data :: datas => (data, datas)
                | [] => ((.cancel, []) : AuthenticateData × List AuthenticateData)) = (d, rest) ∧
                (datas = d :: rest ∨ (datas = [] ∧ d = .cancel ∧ rest = [])) := by
              cases datas with
              | nil => exact ⟨_, _, rfl, .inr ⟨rfl, rfl, rfl⟩⟩
              | cons d rest => exact ⟨_, _, rfl, .inl rfl⟩
            obtain ⟨c', hs1, hs2⟩ := Client.setAuth_ok hL h h8 rfl hn d
            refine ⟨.running rest, c', [.setAuthenticateData d], .continue, _, ?_, hs2, fun _ => ?_, nofun⟩
            · rcases hd2 with rfl | ⟨rfl, rfl, rfl⟩ <;> simp only [clientAuthenticate, hs1, unwrap]
            · have hnew : clientGist (A ++ [i, .setAuth d (.ok hd)]) =
                  ⟨true, [(hd, authCommand tag)], [], (ds ++ [d]).length, ds ++ [d]⟩ := by
                rw [clientGist_event_setAuth hi, h1]
                simp [ClientGist.event, ClientEvent.isTerminal]
              refine ⟨?_, hd, ds ++ [d], k + 1, hnew, ?_, ?_, ?_, ?_, ?_⟩
              · rw [hnew]
                simp only [List.filterMap_append, List.filterMap_cons, data_event hi, hD]
                rfl
              · simp only [List.filterMap_append, List.filterMap_cons, op_event hi, hop, List.map_append, ← List.cons_append]
                rfl
              · have : asks i = true := by simp [asks, hi]
                simp only [List.countP_append, List.countP_cons, has, this, List.length_append]
                rfl
              · rw [List.length_append, List.length_singleton, ← List.drop_drop, ← h2]
                rcases hd2 with rfl | ⟨rfl, -, rfl⟩ <;> simp
              · have hlen : (authDatas ++ List.replicate (k + 1) AuthenticateData.cancel)[ds.length]? = some d := by
                  rcases hd2 with hd2 | ⟨hd2, rfl, -⟩
                  · rw [hd2] at h2
                    have h9 := congrArg (fun l => l[0]?) h2
                    simp only [List.getElem?_cons_zero, List.getElem?_drop, Nat.add_zero] at h9
                    have : ds.length < authDatas.length := by
                      rcases Nat.lt_or_ge ds.length authDatas.length with h | h
                      · exact h
                      · rw [List.getElem?_eq_none h] at h9; cases h9
                    rw [List.getElem?_append_left this]
                    exact h9.symm
                  · rw [hd2] at h2
                    have : authDatas.length ≤ ds.length := List.drop_eq_nil_iff.1 h2.symm
                    rw [List.getElem?_append_right this, List.getElem?_replicate]
                    have : ds.length - authDatas.length < k + 1 := by omega
                    simp [this]
                rw [List.length_append, List.length_singleton, List.take_add_one, hlen, List.replicate_succ',
                  ← List.append_assoc, List.take_append_of_le_length (by simp; omega), ← h3]
                rfl
              · simp; omega
          · cases h6
  line _ _ h := by cases h

/-! ## client_idle.rs -/

theorem afterIdle_snoc (es : List ClientEvent) (e : ClientEvent) :
    afterIdle (es ++ [e]) = if es.any ClientEvent.endsIdle then afterIdle es ++ [e] else [] := by
  induction es with
  | nil => unfold afterIdle; cases h : e.endsIdle <;> simp [h]
  | cons x es ih =>
    cases h : x.endsIdle with
    | true => simp [afterIdle, h]
    | false =>
      have h1 : ∀ es, afterIdle (x :: es) = afterIdle es := fun es => by simp [afterIdle, h]
      rw [List.cons_append, h1, h1, ih]
      simp [h]

/-- How far the idling got. -/
structure IdleTold (ended : Bool) (es : List ClientEvent) : Prop where
  any : es.any ClientEvent.endsIdle = ended
  after : ∀ b, .statusReceived (.tagged idleCommand.tag b) ∉ afterIdle es
  tag : ∀ h st, .idleRejected h st ∈ es → ∃ b, st = .tagged idleCommand.tag b

theorem IdleTold.other {ended : Bool} {es : List ClientEvent} (h : IdleTold ended es) {e : ClientEvent} (he : e.endsIdle = false)
    (hs : ended = true → ∀ b, e ≠ .statusReceived (.tagged idleCommand.tag b)) : IdleTold ended (es ++ [e]) := by
  refine ⟨by simp [h.any, he], fun b => ?_, fun hd st hm => ?_⟩
  · rw [afterIdle_snoc, h.any]
    cases ended with
    | false => simp
    | true => simpa using ⟨h.after b, fun hx => hs rfl b hx.symm⟩
  · rcases List.mem_append.1 hm with hm | hm
    · exact h.tag hd st hm
    · rw [← List.mem_singleton.1 hm] at he; cases he

theorem IdleTold.ends {es : List ClientEvent} (h : IdleTold false es) {e : ClientEvent} (he : e.endsIdle = true)
    (ht : ∀ hd st, e = .idleRejected hd st → ∃ b, st = .tagged idleCommand.tag b) : IdleTold true (es ++ [e]) := by
  refine ⟨by simp [he], fun b => ?_, fun hd st hm => ?_⟩
  · rw [afterIdle_snoc, h.any]; simp
  · rcases List.mem_append.1 hm with hm | hm
    · exact h.tag hd st hm
    · exact ht hd st (List.mem_singleton.1 hm).symm

/-- What holds while `client_idle.rs` awaits an event. -/
def IdleInv (vars : IdleVars) (A : List CItem) : Prop :=
  A.filterMap CItem.data? = [] ∧ (clientGist A).datas = [] ∧
  match vars with
  | .greeting => (clientGist A).greeted = false ∧ (clientGist A).enqueued = [] ∧ (clientGist A).ended = [] ∧
      A.filterMap CItem.op? = [] ∧ IdleTold false (A.filterMap CItem.event?)
  | .idling => (clientGist A).greeted = true ∧ (clientGist A).ended = [] ∧ (∃ h, (clientGist A).enqueued = [(h, idleCommand)]) ∧
      (∃ n, A.filterMap CItem.op? = .enqueueCommand idleCommand :: List.replicate n .setIdleDone) ∧
      IdleTold false (A.filterMap CItem.event?)
  | .ending => (clientGist A).greeted = true ∧ (∃ h, (clientGist A).enqueued = [(h, idleCommand)] ∧
      ((∃ st, (clientGist A).ended = [.idleRejected h st]) ∨ (clientGist A).ended = [.idleDoneSent h])) ∧
      (∃ n, A.filterMap CItem.op? = .enqueueCommand idleCommand :: List.replicate n .setIdleDone) ∧
      IdleTold true (A.filterMap CItem.event?)

/-- What holds when `client_idle.rs` has ended. -/
def IdleOver (A : List CItem) : Prop :=
  ∃ A' i body, A = A' ++ [i] ∧ i.event? = some (.statusReceived (.tagged idleCommand.tag body)) ∧ IdleInv .ending A'

theorem clientIdle_kept (hL : L.Lawful) (g : HandleGenerator) : ClientKept L g (clientIdle L) IdleInv IdleOver where
  start := ⟨rfl, rfl, rfl, rfl, rfl, rfl, rfl, by simp [afterIdle], by simp⟩
  silent {v A i B ops c} hI hi _ := by
    unfold IdleInv at hI ⊢
    simp only [clientGist_silent hi, List.filterMap_append, List.filterMap_cons, data_silent hi, op_silent hi, event_silent hi]
    simpa using hI
  event {v A i e ops c} coin hI hi h := by
    obtain ⟨hD, hda, hI⟩ := hI
    have hD' : ∀ J, J.filterMap CItem.data? = [] → (A ++ i :: J).filterMap CItem.data? = [] := by
      intro J hJ
      simp [hD, data_event hi, hJ]
    have hE : (A ++ [i]).filterMap CItem.event? = A.filterMap CItem.event? ++ [e] := by simp [hi]
    have hO : (A ++ [i]).filterMap CItem.op? = A.filterMap CItem.op? := by simp [op_event hi]
    have he := Client.event_cases hL h hi
    cases v with
    | greeting =>
      obtain ⟨h1, h2, h3, hop, ht⟩ := hI
      rcases he with ⟨-, gr, rfl⟩ | ⟨h4, -⟩
      · refine ⟨_, _, _, _, _, rfl, Client.Calls.enqueue c _, fun _ => ⟨hD' _ rfl, ?_⟩, nofun⟩
        rw [clientGist_event_enqueue hi]
        simp only [ClientGist.event, ClientEvent.isTerminal, h2, h3, hda]
        refine ⟨rfl, rfl, rfl, ⟨_, rfl⟩, ⟨0, ?_⟩, ?_⟩
        · simp only [List.filterMap_append, hop, List.filterMap_cons, op_event hi]
          rfl
        · have := ht.other (e := .greetingReceived gr) rfl nofun
          rw [List.append_cons, List.filterMap_append, hE]
          exact (List.append_nil _).symm ▸ this
      · rw [h1] at h4; cases h4
    | idling =>
      obtain ⟨h1, h2, ⟨hd, h3⟩, hop, ht⟩ := hI
      rcases he with ⟨h4, -⟩ | ⟨-, he⟩
      · rw [h1] at h4; cases h4
      · have none : (clientIdle L).event .idling c e coin = .ok (.idling, c, [], .continue) →
              (clientGist A).event e = clientGist A → e.endsIdle = false →
            ∃ v' c' calls flow J, (clientIdle L).event .idling c e coin = .ok (v', c', calls, flow) ∧
              c.Calls L calls c' J ∧ (flow = .continue → IdleInv v' (A ++ i :: J)) ∧ (flow = .abort → IdleOver (A ++ i :: J)) := by
          intro hx hy hz
          refine ⟨_, _, _, _, _, hx, .nil c, fun _ => ?_, nofun⟩
          unfold IdleInv
          rw [clientGist_event hi, hy]
          exact ⟨hD' [] rfl, hda, h1, h2, ⟨hd, h3⟩, by rw [hO]; exact hop, by rw [hE]; exact ht.other hz nofun⟩
        have fin : (clientIdle L).event .idling c e coin = .ok (.ending, c, [], .continue) →
              (clientGist A).event e = { clientGist A with ended := [e], asked := 0, datas := [] } → e.endsIdle = true →
              ((∃ st, [e] = [ClientEvent.idleRejected hd st]) ∨ [e] = [.idleDoneSent hd]) →
            ∃ v' c' calls flow J, (clientIdle L).event .idling c e coin = .ok (v', c', calls, flow) ∧
              c.Calls L calls c' J ∧ (flow = .continue → IdleInv v' (A ++ i :: J)) ∧ (flow = .abort → IdleOver (A ++ i :: J)) := by
          intro hx hy hz hw
          refine ⟨_, _, _, _, _, hx, .nil c, fun _ => ?_, nofun⟩
          unfold IdleInv
          rw [clientGist_event hi, hy]
          refine ⟨hD' [] rfl, rfl, h1, ⟨hd, h3, hw⟩, by rw [hO]; exact hop, ?_⟩
          rw [hE]
          refine ht.ends hz fun hd' st hs => ?_
          subst hs
          obtain ⟨cmd, body, h4, h5⟩ := Client.rejected_tag hL h hi
          rw [h3] at h4
          simp only [List.mem_singleton, Prod.mk.injEq] at h4
          exact ⟨body, by rw [h5, h4.2]⟩
        have he2 := h2
        rw [h2, h3] at he
        rcases he with ⟨d, rfl⟩ | ⟨st, rfl⟩ | ⟨q, rfl⟩ | ⟨hd', cmd, q, h5, h6⟩
        · exact none rfl rfl rfl
        · exact none rfl rfl rfl
        · exact none rfl rfl rfl
        · simp only [List.length_nil, List.drop_zero, List.cons.injEq, Prod.mk.injEq] at h5
          obtain ⟨⟨rfl, rfl⟩, rfl⟩ := h5
          rcases h6 with ⟨h6, -⟩ | ⟨h6, -⟩ | ⟨-, rfl | ⟨st, rfl⟩ | rfl | ⟨r, rfl⟩⟩
          · cases h6
          · cases h6
          · exact none rfl rfl rfl
          · exact fin rfl (by simp [ClientGist.event, ClientEvent.isTerminal, h2]) rfl (.inl ⟨st, rfl⟩)
          · exact fin rfl (by simp [ClientGist.event, ClientEvent.isTerminal, h2]) rfl (.inr rfl)
          · exact none rfl rfl rfl
    | ending =>
      have hIe := hI
      obtain ⟨h1, ⟨hd, h3, h2⟩, hop, ht⟩ := hI
      rcases he with ⟨h4, -⟩ | ⟨-, he⟩
      · rw [h1] at h4; cases h4
      · have none : ∀ {flow}, (clientIdle L).event .ending c e coin = .ok (.ending, c, [], flow) →
              (clientGist A).event e = clientGist A → e.endsIdle = false →
              (flow = .continue → ∀ b, e ≠ .statusReceived (.tagged idleCommand.tag b)) →
              (flow = .abort → IdleOver (A ++ [i])) →
            ∃ v' c' calls flow J, (clientIdle L).event .ending c e coin = .ok (v', c', calls, flow) ∧
              c.Calls L calls c' J ∧ (flow = .continue → IdleInv v' (A ++ i :: J)) ∧ (flow = .abort → IdleOver (A ++ i :: J)) := by
          intro flow hx hy hz hu hw
          refine ⟨_, _, _, _, _, hx, .nil c, fun hf => ?_, hw⟩
          unfold IdleInv
          rw [clientGist_event hi, hy]
          exact ⟨hD' [] rfl, hda, h1, ⟨hd, h3, h2⟩, by rw [hO]; exact hop, by rw [hE]; exact ht.other hz fun _ => hu hf⟩
        rcases he with ⟨d, rfl⟩ | ⟨st, rfl⟩ | ⟨q, rfl⟩ | ⟨hd', cmd, q, h5, h6⟩
        · exact none rfl rfl rfl nofun nofun
        · cases st with
          | tagged tag body =>
            refine none (flow := if tag = idleCommand.tag then .abort else .continue) rfl rfl rfl (fun hf b hb => ?_) fun hf => ?_
            · cases hb
              simp at hf
            · split at hf
              · rename_i ht
                subst ht
                exact ⟨A, i, body, rfl, hi, hD, hda, hIe⟩
              · cases hf
          | untagged body => exact none (flow := .continue) rfl rfl rfl nofun nofun
          | bye code text => exact none (flow := .continue) rfl rfl rfl nofun nofun
        · exact none rfl rfl rfl nofun nofun
        · rcases h2 with ⟨st, h2⟩ | h2 <;> rw [h2, h3] at h5 <;> cases h5
  line {v A ops c text x} hI h hx := by
    cases v with
    | greeting => cases hx
    | ending => cases hx
    | idling =>
      obtain ⟨c', r, h1, h2⟩ := Client.setDone_any hL h
      simp only [clientIdle, h1, Option.some.injEq] at hx
      subst hx
      refine ⟨_, _, _, _, rfl, h2, ?_⟩
      unfold IdleInv at hI ⊢
      rw [clientGist_setDone]
      obtain ⟨g1, g2, g3, g4, g5, ⟨n, g6⟩, g7⟩ := hI
      refine ⟨?_, g2, g3, g4, g5, ⟨n + 1, ?_⟩, ?_⟩
      · rw [List.filterMap_append, g1]
        rfl
      · rw [List.filterMap_append, g6, List.replicate_succ', ← List.cons_append]
        rfl
      · rw [List.filterMap_append]
        exact (List.append_nil _).symm ▸ g7

end Examples

/-! ## Runs -/

/-- What an invariant says about a run from the start. -/
theorem ClientKept.runs {K σ : Type} (hL : L.Lawful) {g : HandleGenerator} {P : Program σ Client ClientEvent ClientOp}
    {I : σ → List CItem → Prop} {Q : List CItem → Prop} (hk : ClientKept L g P I Q) {x : Running K σ Client}
    {T : List (ProgramItem ClientError ClientEvent ClientOp)} (h : ClientRuns L g P x T) :
    ∃ c A, ClientKept.At L g I Q T x c A ∧ x.Stands T ∧ GreetedFirst (programEvents T) ∧
      ((clientGist A).greeted = true ↔ programEvents T ≠ []) := by
  obtain ⟨as, h⟩ := h
  have h0 : ClientKept.At (K := K) L g I Q [] (Examples.startClient P g) (Client.new g .default) [] :=
    ⟨rfl, rfl, rfl, rfl, hk.start⟩
  obtain ⟨c, A, h1, h2⟩ := ClientKept.run hL hk h0 nofun h
  obtain ⟨h3, h4⟩ := Client.greeting_first hL (B := []) (by simpa using h1.trace)
  rw [h1.events] at h3 h4
  exact ⟨c, A, h1, h2, h4, h3⟩

theorem Examples.asks_count (A : List CItem) : A.countP asks = (A.filterMap CItem.event?).countP ClientEvent.asksData := by
  induction A with
  | nil => rfl
  | cons i A ih =>
    rw [List.countP_cons, List.filterMap_cons, ih]
    cases hi : i.event? with
    | none => simp [asks, hi]
    | some e =>
      simp only [List.countP_cons, asks, hi]
      cases e <;> rfl

theorem Client.no_terminal {A : List CItem} (h : (clientGist A).ended = []) :
    ∀ e ∈ A.filterMap CItem.event?, e.isTerminal = false := by
  have h1 : clientTerminals A = [] := by
    rw [← (ClientView.of_fields A).2.2.2.1]
    exact h
  intro e he
  obtain ⟨i, hi, hie⟩ := List.mem_filterMap.1 he
  unfold clientTerminals at h1
  have := List.filterMap_eq_nil_iff.1 h1 i hi
  unfold CItem.terminal? at this
  rw [hie] at this
  cases ht : e.isTerminal with
  | false => rfl
  | true => rw [Option.filter_some, ht] at this; cases this

end ImapFlow
