import Verif.Proofs.StreamClient
import Verif.Proofs.FullStreamRun
import Verif.Proofs.ServerInv
import Verif.Proofs.ServerView
import Verif.Proofs.Net
import Verif.Spec.StreamSent
import Verif.Spec.Calls

/-!
# Sent events of a stream
-/

namespace ImapFlow

variable {K σ ε ev ι : Type}

namespace FullStream

theorem Advanced.returned_ok {M : Machine σ ε ev ι} {c c' : FullStream K σ} {q q' : List (FullItem ε ev ι)} {e : ev}
    {U : List (FullItem ε ev ι)} (h : Advanced M c c' U) (hU : U = q ++ .stream (.returned (.ok e)) :: q') :
    q' = [] ∧ (∃ q0, q = q0 ++ [.stream (.poll (.ok e))]) ∧ c'.ctl = .at .idle ∧ c'.writeBuffer = c.writeBuffer ∧
      .refused ∉ q := by
  have hm : .stream (.returned (.ok e)) ∈ U := by rw [hU]; simp
  have hprov : ∀ {b s s1} {D : List (StreamItem ε ev ι)}, Provides M b s s1 D → .returned (.ok e) ∉ D := by
    rintro b s s1 D (⟨-, -, rfl⟩ | ⟨-, -, rfl⟩) <;> simp
  cases h with
  | hung => simp at hm
  | broken => simp at hm
  | inputPanic => simp at hm
  | nextPanic _ g => have := hprov g; simp [this] at hm
  | @returned _ _ _ D _ _ r _ g _ hr hc' =>
    have hD := hprov g
    subst hc'
    rcases r with (io | e') | e'
    · exact (hr io rfl).elim
    · simp [returns, hD] at hm
    · have he : e' = e := by simpa [returns, hD, eq_comm] using hm
      subst he
      have hU' : (D.map FullItem.stream ++ [FullItem.stream (.poll (.ok e'))]) ++ FullItem.stream (.returned (.ok e')) :: [] =
          q ++ .stream (.returned (.ok e')) :: q' := by
        rw [← hU]; simp [returns]
      have hnot : FullItem.stream (.returned (.ok e')) ∉ D.map FullItem.stream ++ [FullItem.stream (.poll (.ok e'))] := by
        simp [hD]
      rcases List.append_eq_append_iff.1 hU' with ⟨u, e1, e2⟩ | ⟨u, e1, e2⟩
      · cases u with
        | nil =>
          injection e2 with _ e2
          rw [List.append_nil] at e1
          subst e1
          refine ⟨e2.symm, ⟨_, rfl⟩, rfl, rfl, by simp⟩
        | cons z u =>
          injection e2 with _ e2
          simp at e2
      · cases u with
        | nil =>
          injection e2 with _ e2
          rw [List.append_nil] at e1
          subst e1
          refine ⟨e2, ⟨_, rfl⟩, rfl, rfl, by simp⟩
        | cons z u =>
          injection e2 with e2 _
          subst e2
          exact (hnot (by rw [e1]; simp)).elim
  | waits _ g => have := hprov g; simp [this] at hm
  | refused _ g => have := hprov g; simp [this] at hm

/-- Where an event is returned. -/
theorem Stepped.returned_ok {M : Machine σ ε ev ι} {c c' : FullStream K σ} {q q' : List (FullItem ε ev ι)} {e : ev}
    {U : List (FullItem ε ev ι)} (h : Stepped M c c' U) (hU : U = q ++ .stream (.returned (.ok e)) :: q') :
    q' = [] ∧ (∃ q0, q = q0 ++ [.stream (.poll (.ok e))]) ∧ c'.ctl = .at .idle ∧
      (∀ b q0, q = .stream (.wrote b) :: q0 → c'.writeBuffer = []) ∧ .refused ∉ q := by
  have hm : .stream (.returned (.ok e)) ∈ U := by rw [hU]; simp
  have key : ∀ {x U' c0}, Advanced M (c0 : FullStream K σ) c' U' → .stream x :: U' = q ++ .stream (.returned (.ok e)) :: q' →
      x ≠ .returned (.ok e) → (∀ b, x = .wrote b → c0.writeBuffer = []) →
      q' = [] ∧ (∃ q0, q = q0 ++ [.stream (.poll (.ok e))]) ∧ c'.ctl = .at .idle ∧
        (∀ b q0, q = .stream (.wrote b) :: q0 → c'.writeBuffer = []) ∧ .refused ∉ q := by
    intro x U' c0 hadv he hx hw
    cases q with
    | nil => injection he with he _; injection he with he; exact (hx he).elim
    | cons y q =>
      injection he with he1 he2
      obtain ⟨h1, ⟨q0, h2⟩, h3, h4, h5⟩ := hadv.returned_ok he2
      refine ⟨h1, ⟨y :: q0, by rw [h2]; rfl⟩, h3, ?_, ?_⟩
      · intro b q1 hq
        injection hq with hq1 _
        rw [h4]
        rw [← he1] at hq1
        injection hq1 with hq1
        exact hw b hq1
      · rw [← he1]; simpa using h5
  cases h with
  | user => simp at hm
  | userPanic => simp at hm
  | callNext _ g => exact key g hU (by simp) (by simp)
  | read _ _ g => exact key g hU (by simp) (by simp)
  | written _ _ _ g => exact key g hU (by simp) (fun _ _ => rfl)
  | wrote _ _ _ g => rcases g with ⟨-, rfl, -⟩ | ⟨-, -, rfl, -⟩ <;> simp at hm
  | flush _ _ g => rcases g with ⟨-, rfl, -⟩ | ⟨-, rfl, -⟩ <;> simp at hm
  | ended _ g =>
    rcases g with ⟨-, rfl, rfl⟩ | ⟨-, rfl, rfl⟩ | ⟨-, rfl, rfl⟩ | ⟨-, rfl, rfl⟩ | ⟨-, rfl, rfl⟩ <;> simp at hm
  | dropped => simp at hm

/-- The calls of the state before an event is returned. -/
theorem run_returned_ok [DecidableEq ε] [DecidableEq ev] {M : Machine σ ε ev ι} {as : List (StreamAct ι)}
    {c c' : FullStream K σ} {pre post : List (FullItem ε ev ι)} {e : ev}
    (h : run M c as = some (c', pre ++ .stream (.returned (.ok e)) :: post)) :
    ∃ S s, streamPart pre = S ++ [.poll (.ok e)] ∧ M.replay c.state (streamPart pre) = some s := by
  obtain ⟨as1, a, as2, c1, c2, T1, T2, q, q', -, h1, h2, -, rfl, -⟩ := run_split h
  obtain ⟨rfl, ⟨q0, rfl⟩, hidle, -, -⟩ := (step_cases h2).returned_ok rfl
  refine ⟨streamPart (T1 ++ q0), c2.state, by rw [← List.append_assoc, streamPart_append]; rfl, ?_⟩
  have h3 := run_replay (run_snoc h1 h2) (by rw [hidle]; simp)
  rw [← List.append_assoc, streamPart_append, Machine.replay_append] at h3
  cases h4 : M.replay c.state (streamPart (T1 ++ (q0 ++ [FullItem.stream (.poll (.ok e))]))) with
  | none => rw [h4] at h3; cases h3
  | some s =>
    rw [h4] at h3
    exact h3

end FullStream

/-! ## Clients -/

theorem filterMap_one {α β : Type} {f : α → Option β} {l : List α} {y : β} (h : l.filterMap f = [y]) :
    ∃ A x B, l = A ++ x :: B ∧ A.filterMap f = [] ∧ f x = some y := by
  induction l with
  | nil => cases h
  | cons a l ih =>
    rw [List.filterMap_cons] at h
    cases ha : f a with
    | none =>
      rw [ha] at h
      obtain ⟨A, x, B, rfl, h1, h2⟩ := ih h
      exact ⟨a :: A, x, B, rfl, by rw [List.filterMap_cons, ha]; exact h1, h2⟩
    | some z =>
      rw [ha] at h
      injection h with h1 h2
      exact ⟨[], a, l, rfl, rfl, by rw [ha, h1]⟩

/-- A call of `next` of a client on a stream that returns an event. -/
theorem client_poll {L : Lib} {g : HandleGenerator} {o : ClientOptions}
    {S : List (StreamItem ClientError ClientEvent ClientOp)} {c' : Client} {e : ClientEvent}
    (h : (clientMachine L).replay (Client.new g o) (S ++ [.poll (.ok e)]) = some c') :
    ∃ ops c1 T i B H c2, (Client.new g o).trace L ops = .ok (c1, T ++ i :: B) ∧
      i.erase = some (.next (.ok e)) ∧ (StreamOwned S → clientOutput T = streamOutput S) ∧
      (Client.new g o).run L (streamClientOps S) = .ok (c2, H) ∧ T.filterMap CItem.erase = H := by
  rw [Machine.replay_append] at h
  cases h1 : (clientMachine L).replay (Client.new g o) S with
  | none => rw [h1] at h; cases h
  | some c2 =>
    rw [h1] at h
    obtain ⟨H, e1, e2⟩ := stream_client_run h1
    have e3 := Client.trace_erase L (Client.new g o) (streamClientOps S)
    rw [e1] at e3
    cases ht : (Client.new g o).trace L (streamClientOps S) with
    | error p => rw [ht] at e3; cases e3
    | ok x =>
      obtain ⟨c3, U⟩ := x
      rw [ht] at e3
      simp only [Client.eraseRes, Except.ok.injEq, Prod.mk.injEq] at e3
      obtain ⟨rfl, e3⟩ := e3
      simp only [Option.bind_some, Machine.replay, clientMachine] at h
      have e4 := Client.nextTrace_erase L c3
      cases hn : c3.next L with
      | error p => rw [hn] at h; cases h
      | ok z =>
        obtain ⟨c5, r⟩ := z
        rw [hn] at h e4
        simp only at h
        split at h
        · rename_i hr
          subst hr
          cases hnt : c3.nextTrace L with
          | error p => rw [hnt] at e4; cases e4
          | ok y =>
            obtain ⟨c6, V⟩ := y
            rw [hnt] at e4
            simp only [Client.eraseRes, Except.map, Except.ok.injEq, Prod.mk.injEq] at e4
            obtain ⟨A, i, B, rfl, f1, f2⟩ := filterMap_one e4.2
            refine ⟨streamClientOps S ++ [.next], c6, U ++ A, i, B, H, c3, ?_, f2, ?_, e1, ?_⟩
            · rw [Client.trace_append, ht]
              simp [Client.trace, Client.callTrace, hnt]
            · intro ho
              rw [CItem.outputs_erase, List.filterMap_append, e3, f1, List.append_nil]
              exact e2 ho
            · rw [List.filterMap_append, e3, f1, List.append_nil]
        · cases h

theorem CItem.erase_event {i : CItem} {e : ClientEvent} (h : i.erase = some (.next (.ok e))) :
    i = .sent e ∨ ∃ w, i = .received w e := by
  cases i with
  | sent e' =>
    simp only [CItem.erase, Option.some.injEq, ClientObs.next.injEq, Except.ok.injEq] at h
    exact .inl (by rw [h])
  | received w e' =>
    simp only [CItem.erase, Option.some.injEq, ClientObs.next.injEq, Except.ok.injEq] at h
    exact .inr ⟨w, by rw [h]⟩
  | _ => simp [CItem.erase] at h

theorem ClientView.route_not_sent {v : ClientView} {r : Response} {e : ClientEvent} (h : v.route r = some e) :
    e.isSent = false := by
  unfold ClientView.route at h
  repeat' split at h
  all_goals first
    | (injection h with h; subst h; rfl)
    | cases h

theorem mem_clientEnqueued {T : List CItem} {x : RawHandle × Command} (h : x ∈ clientEnqueued T) :
    .enqueued x.1 x.2 ∈ T.filterMap CItem.erase := by
  induction T with
  | nil => cases h
  | cons i T ih =>
    rw [List.filterMap_cons]
    cases i with
    | enqueue hd cmd =>
      have h' : x ∈ (hd, cmd) :: clientEnqueued T := h
      rcases List.mem_cons.1 h' with rfl | h'
      · simp [CItem.erase]
      · simp only [CItem.erase]
        exact List.mem_cons_of_mem _ (ih h')
    | _ =>
      have h' : x ∈ clientEnqueued T := h
      have := ih h'
      first
        | (simp only [CItem.erase]; exact List.mem_cons_of_mem _ this)
        | (simp only [CItem.erase]; exact this)

/-- The bytes that a client on a stream reports as sent are the last ones it handed out. -/
theorem client_sent {L : Lib} (hL : L.Lawful) {g : HandleGenerator} {o : ClientOptions}
    {S : List (StreamItem ClientError ClientEvent ClientOp)} {c' : Client} {e : ClientEvent}
    (h : (clientMachine L).replay (Client.new g o) (S ++ [.poll (.ok e)]) = some c') (he : e.isSent = true) (ho : StreamOwned S) :
    ∃ x b c2 H, e.Sends L x b ∧ b <:+ streamOutput S ∧ (Client.new g o).run L (streamClientOps S) = .ok (c2, H) ∧
      .enqueued x.1 x.2 ∈ H := by
  obtain ⟨ops, c1, T, i, B, H, c2, h1, h2, h3, h4, h5⟩ := client_poll h
  have hg := Client.trace_guard hL h1
  rcases CItem.erase_event h2 with rfl | ⟨w, rfl⟩
  · obtain ⟨-, hd, cmd, q, h6, h7⟩ := hg
    have h8 := (ClientView.of_fields T).2.2.2.2
    have hsuf : (ClientView.of T).sent <:+ streamOutput S := by rw [← h3 ho, ← h8]; exact List.suffix_append _ _
    have hen : .enqueued hd cmd ∈ H := by
      rw [← h5]
      have h9 : (hd, cmd) ∈ (ClientView.of T).enqueued := by
        have : (hd, cmd) ∈ (ClientView.of T).remaining := by rw [h6]; simp
        exact List.mem_of_mem_drop this
      rw [(ClientView.of_fields T).2.2.1] at h9
      exact mem_clientEnqueued h9
    rcases h7 with ⟨rfl, -, -, h7, -⟩ | ⟨rfl, h10, -, h7, -⟩ | ⟨rfl, h10, -, h7, -⟩ | ⟨rfl, h10, -, -, -, h7⟩
    · exact ⟨_, _, _, _, .command hd cmd, h7 ▸ hsuf, h4, hen⟩
    · exact ⟨_, _, _, _, .authenticate hd cmd h10, h7 ▸ hsuf, h4, hen⟩
    · exact ⟨_, _, _, _, .idle hd cmd h10, h7 ▸ hsuf, h4, hen⟩
    · exact ⟨_, _, _, _, .done hd cmd h10, (List.suffix_append _ _).trans (h7 ▸ hsuf), h4, hen⟩
  · obtain ⟨-, -, ⟨-, gr, rfl, -⟩ | ⟨-, r, h6, -⟩⟩ := hg
    · cases he
    · rw [ClientView.route_not_sent h6] at he; cases he

/-! ## Servers -/

/-- The calls on the server. -/
def StreamItem.serverOp? : StreamItem ServerError ServerEvent ServerOp → Option ServerOp
  | .user op => some op
  | .deliver b => some (.enqueueInput b)
  | .poll _ => some .next
  | _ => none

/-- The calls on the server. -/
def streamServerOps (T : List (StreamItem ServerError ServerEvent ServerOp)) : List ServerOp :=
  T.filterMap StreamItem.serverOp?

/-- The bytes handed out in a history. -/
def ServerObs.outputs : ServerObs → Bytes
  | .next (.error (.io (.output b))) => b
  | _ => []

theorem SItem.outputs_erase' (T : List SItem) : serverOutput T = (T.filterMap SItem.erase).flatMap ServerObs.outputs := by
  induction T with
  | nil => rfl
  | cons i T ih =>
    rw [show i :: T = [i] ++ T from rfl, serverOutput_append, ih, List.filterMap_append, List.flatMap_append]
    congr 1
    cases i <;> rfl

theorem Server.call_outputs {L : Lib} {s s1 : Server} {op : ServerOp} {obs : ServerObs} (h : s.call L op = .ok (s1, obs))
    (ho : op ≠ .next) : obs.outputs = [] := by
  cases op with
  | next => exact (ho rfl).elim
  | enqueueData d => simp only [Server.call] at h; cases h; rfl
  | enqueueStatus d => simp only [Server.call] at h; cases h; rfl
  | enqueueContinuationRequest d => simp only [Server.call] at h; cases h; rfl
  | authenticateContinue d => simp only [Server.call] at h; cases h; rfl
  | authenticateFinish d =>
    simp only [Server.call] at h
    cases he : s.authenticateFinish d with
    | error p => rw [he] at h; cases h
    | ok y => rw [he] at h; cases h; rfl
  | idleAccept d =>
    simp only [Server.call] at h
    cases he : s.idleAccept d with
    | error p => rw [he] at h; cases h
    | ok y => rw [he] at h; cases h; rfl
  | idleReject d =>
    simp only [Server.call] at h
    cases he : s.idleReject d with
    | error p => rw [he] at h; cases h
    | ok y => rw [he] at h; cases h; rfl
  | enqueueInput d =>
    simp only [Server.call] at h
    cases he : s.enqueueInput d with
    | error p => rw [he] at h; cases h
    | ok y => rw [he] at h; cases h; rfl

theorem stream_server_run {L : Lib} {T : List (StreamItem ServerError ServerEvent ServerOp)} {s s' : Server}
    (h : (serverMachine L).replay s T = some s') :
    ∃ H, Server.run L s (streamServerOps T) = .ok (s', H) ∧
      (StreamOwnedServer T → H.flatMap ServerObs.outputs = streamOutput T) := by
  induction T generalizing s with
  | nil =>
    cases h
    exact ⟨[], rfl, fun _ => rfl⟩
  | cons i T ih =>
    have step : ∀ op obs s1, i.serverOp? = some op → s.call L op = .ok (s1, obs) →
        (serverMachine L).replay s1 T = some s' →
        (StreamOwnedServer (i :: T) → obs.outputs = streamOutput [i]) →
        ∃ H, Server.run L s (streamServerOps (i :: T)) = .ok (s', H) ∧
          (StreamOwnedServer (i :: T) → H.flatMap ServerObs.outputs = streamOutput (i :: T)) := by
      intro op obs s1 h1 h2 h3 h4
      obtain ⟨H, h5, h6⟩ := ih h3
      refine ⟨obs :: H, ?_, ?_⟩
      · rw [show streamServerOps (i :: T) = op :: streamServerOps T by simp [streamServerOps, h1]]
        simp [Server.run, h2, h5]
      · intro ho
        have ho' : StreamOwnedServer T := fun hm => ho (List.mem_cons_of_mem _ hm)
        rw [List.flatMap_cons, h6 ho', h4 ho, show i :: T = [i] ++ T from rfl, streamOutput_append]
    have skip : i.serverOp? = none → streamOutput [i] = [] → (serverMachine L).replay s T = some s' →
        ∃ H, Server.run L s (streamServerOps (i :: T)) = .ok (s', H) ∧
          (StreamOwnedServer (i :: T) → H.flatMap ServerObs.outputs = streamOutput (i :: T)) := by
      intro h1 h2 h3
      obtain ⟨H, h5, h6⟩ := ih h3
      refine ⟨H, ?_, ?_⟩
      · rw [show streamServerOps (i :: T) = streamServerOps T by simp [streamServerOps, h1]]
        exact h5
      · intro ho
        have ho' : StreamOwnedServer T := fun hm => ho (List.mem_cons_of_mem _ hm)
        rw [h6 ho', show i :: T = [i] ++ T from rfl, streamOutput_append, h2, List.nil_append]
    cases i with
    | user op =>
      simp only [Machine.replay, serverMachine] at h
      cases hc : s.call L op with
      | error p => rw [hc] at h; cases h
      | ok x =>
        obtain ⟨s1, obs⟩ := x
        rw [hc] at h
        refine step op obs s1 rfl hc h (fun ho => ?_)
        exact Server.call_outputs hc (fun he => ho (by rw [he]; simp))
    | deliver b =>
      simp only [Machine.replay, serverMachine] at h
      cases hc : s.enqueueInput b with
      | error p => rw [hc] at h; cases h
      | ok s1 =>
        rw [hc] at h
        exact step (.enqueueInput b) (.input b) s1 rfl (by simp [Server.call, hc, Except.map]) h (fun _ => rfl)
    | poll r =>
      simp only [Machine.replay, serverMachine] at h
      cases hc : s.next L with
      | error p => rw [hc] at h; cases h
      | ok x =>
        obtain ⟨s1, r'⟩ := x
        rw [hc] at h
        simp only at h
        split at h
        · rename_i e
          subst e
          refine step .next (.next r') s1 rfl (by simp [Server.call, hc, Except.map]) h (fun _ => ?_)
          rcases r' with (⟨_ | b⟩ | e) | e <;> simp [ServerObs.outputs, streamOutput]
        · cases h
    | _ => exact skip rfl rfl h

/-- A call of `next` of a server on a stream that returns an event. -/
theorem server_poll {L : Lib} {g : HandleGenerator} {o : ServerOptions} {gr : Greeting}
    {S : List (StreamItem ServerError ServerEvent ServerOp)} {s' : Server} {e : ServerEvent}
    (h : (serverMachine L).replay (Server.new g o gr) (S ++ [.poll (.ok e)]) = some s') :
    ∃ ops s1 T i B, (Server.new g o gr).trace L ops = .ok (s1, T ++ i :: B) ∧
      i.erase = some (.next (.ok e)) ∧ (StreamOwnedServer S → serverOutput T = streamOutput S) := by
  rw [Machine.replay_append] at h
  cases h1 : (serverMachine L).replay (Server.new g o gr) S with
  | none => rw [h1] at h; cases h
  | some c2 =>
    rw [h1] at h
    obtain ⟨H, e1, e2⟩ := stream_server_run h1
    have e3 := Server.trace_erase L (Server.new g o gr) (streamServerOps S)
    rw [e1] at e3
    cases ht : (Server.new g o gr).trace L (streamServerOps S) with
    | error p => rw [ht] at e3; cases e3
    | ok x =>
      obtain ⟨c3, U⟩ := x
      rw [ht] at e3
      simp only [Server.eraseRes, Except.ok.injEq, Prod.mk.injEq] at e3
      obtain ⟨rfl, e3⟩ := e3
      simp only [Option.bind_some, Machine.replay, serverMachine] at h
      have e4 := Server.nextTrace_erase L c3
      cases hn : c3.next L with
      | error p => rw [hn] at h; cases h
      | ok z =>
        obtain ⟨c5, r⟩ := z
        rw [hn] at h e4
        simp only at h
        split at h
        · rename_i hr
          subst hr
          cases hnt : c3.nextTrace L with
          | error p => rw [hnt] at e4; cases e4
          | ok y =>
            obtain ⟨c6, V⟩ := y
            rw [hnt] at e4
            simp only [Server.eraseRes, Except.map, Except.ok.injEq, Prod.mk.injEq] at e4
            obtain ⟨A, i, B, rfl, f1, f2⟩ := filterMap_one e4.2
            refine ⟨streamServerOps S ++ [.next], c6, U ++ A, i, B, ?_, f2, ?_⟩
            · rw [Server.trace_append, ht]
              simp [Server.trace, Server.callTrace, hnt]
            · intro ho
              rw [SItem.outputs_erase', List.filterMap_append, e3, f1, List.append_nil]
              exact e2 ho
        · cases h

theorem SItem.erase_event {i : SItem} {e : ServerEvent} (h : i.erase = some (.next (.ok e))) :
    i = .sent e ∨ ∃ w, i = .received w e := by
  cases i with
  | sent e' =>
    simp only [SItem.erase, Option.some.injEq, ServerObs.next.injEq, Except.ok.injEq] at h
    exact .inl (by rw [h])
  | received w e' =>
    simp only [SItem.erase, Option.some.injEq, ServerObs.next.injEq, Except.ok.injEq] at h
    exact .inr ⟨w, by rw [h]⟩
  | _ => simp [SItem.erase] at h

theorem Taken.not_sent {L : Lib} {o : ServerOptions} {p : ServerPhase} {w : Bytes} {e : ServerEvent} {b : Bytes}
    (h : Taken L o p w e) (he : e.Sends L b) : False := by
  cases p with
  | command =>
    obtain ⟨c, -, rfl⟩ := h
    unfold Command.event at he
    split at he <;> cases he
  | authenticate => obtain ⟨d, -, rfl⟩ := h; cases he
  | idlePending => exact h
  | idle => obtain ⟨-, rfl⟩ := h; cases he

theorem ServerMessage.sends {L : Lib} {m : ServerMessage} {e : ServerEvent} {b : Bytes} (h : m.event = some e)
    (he : e.Sends L b) : b = m.bytes L := by
  cases m with
  | greeting g => cases h; cases he; rfl
  | response hd r =>
    cases hd with
    | none => cases h
    | some hd => cases h; cases he; rfl

/-- The bytes that a server on a stream reports as sent are the last ones it handed out. -/
theorem server_sent {L : Lib} {g : HandleGenerator} {o : ServerOptions} {gr : Greeting}
    {S : List (StreamItem ServerError ServerEvent ServerOp)} {s' : Server} {e : ServerEvent} {b : Bytes}
    (h : (serverMachine L).replay (Server.new g o gr) (S ++ [.poll (.ok e)]) = some s') (he : e.Sends L b)
    (ho : StreamOwnedServer S) : b <:+ streamOutput S := by
  obtain ⟨ops, s1, T, i, B, h1, h2, h3⟩ := server_poll h
  have hg := Server.trace_guard h1
  obtain ⟨s2, -, ⟨-, h6, h7, -⟩, -⟩ := Server.prefix_inv h1
  rcases SItem.erase_event h2 with rfl | ⟨w, rfl⟩
  · obtain ⟨h4, m, h5, h8⟩ := hg
    have h9 : (ServerView.of gr T).outputs.flatten = streamOutput S := by
      rw [(ServerView.of_fields gr T).2.2.2.1, h3 ho]
    have h10 : (ServerView.of gr T).messages.take (ServerView.of gr T).outputs.length =
        (ServerView.of gr T).messages.take (ServerView.of gr T).finished ++ [m] := by
      rw [h4, List.take_add_one, h5]
      rfl
    rw [← h9, h7, h10, List.map_append, List.flatten_append, ServerMessage.sends h8 he]
    simp
  · exact (Taken.not_sent hg.2.2.2.1 he).elim

end ImapFlow
