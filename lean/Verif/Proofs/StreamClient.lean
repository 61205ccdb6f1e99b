import Verif.Proofs.StreamShape
import Verif.Proofs.ClientNext
import Verif.Spec.Calls

/-!
# A client on a stream

The calls a stream makes on a client form a history of the client, so the theorems about clients apply.
-/

namespace ImapFlow

/-- The bytes handed out in a history. -/
def ClientObs.outputs : ClientObs → Bytes
  | .next (.error (.io (.output b))) => b
  | _ => []

theorem CItem.outputs_erase (T : List CItem) : clientOutput T = (T.filterMap CItem.erase).flatMap ClientObs.outputs := by
  induction T with
  | nil => rfl
  | cons i T ih =>
    rw [show clientOutput (i :: T) = i.outputs ++ clientOutput T from rfl, ih]
    cases i <;> simp [CItem.erase, CItem.outputs, ClientObs.outputs, List.filterMap_cons]

theorem stream_client_run {L : Lib} {T : List (StreamItem ClientError ClientEvent ClientOp)} {c c' : Client}
    (h : (clientMachine L).replay c T = some c') :
    ∃ H, Client.run L c (streamClientOps T) = .ok (c', H) ∧
      (StreamOwned T → H.flatMap ClientObs.outputs = streamOutput T) := by
  induction T generalizing c with
  | nil =>
    cases h
    exact ⟨[], rfl, fun _ => rfl⟩
  | cons i T ih =>
    have step : ∀ op obs c1, i.clientOp? = some op → c.call L op = .ok (c1, obs) →
        (clientMachine L).replay c1 T = some c' →
        (StreamOwned (i :: T) → obs.outputs = streamOutput [i]) →
        ∃ H, Client.run L c (streamClientOps (i :: T)) = .ok (c', H) ∧
          (StreamOwned (i :: T) → H.flatMap ClientObs.outputs = streamOutput (i :: T)) := by
      intro op obs c1 h1 h2 h3 h4
      obtain ⟨H, h5, h6⟩ := ih h3
      refine ⟨obs :: H, ?_, ?_⟩
      · rw [show streamClientOps (i :: T) = op :: streamClientOps T by simp [streamClientOps, h1]]
        simp [Client.run, h2, h5]
      · intro ho
        have ho' : StreamOwned T := fun hm => ho (List.mem_cons_of_mem _ hm)
        rw [List.flatMap_cons, h6 ho', h4 ho, show i :: T = [i] ++ T from rfl, streamOutput_append]
    have skip : i.clientOp? = none → streamOutput [i] = [] → (clientMachine L).replay c T = some c' →
        ∃ H, Client.run L c (streamClientOps (i :: T)) = .ok (c', H) ∧
          (StreamOwned (i :: T) → H.flatMap ClientObs.outputs = streamOutput (i :: T)) := by
      intro h1 h2 h3
      obtain ⟨H, h5, h6⟩ := ih h3
      refine ⟨H, ?_, ?_⟩
      · rw [show streamClientOps (i :: T) = streamClientOps T by simp [streamClientOps, h1]]
        exact h5
      · intro ho
        have ho' : StreamOwned T := fun hm => ho (List.mem_cons_of_mem _ hm)
        rw [h6 ho', show i :: T = [i] ++ T from rfl, streamOutput_append, h2, List.nil_append]
    cases i with
    | user op =>
      simp only [Machine.replay, clientMachine] at h
      cases hc : c.call L op with
      | error p => rw [hc] at h; cases h
      | ok x =>
        obtain ⟨c1, obs⟩ := x
        rw [hc] at h
        refine step op obs c1 rfl hc h (fun ho => ?_)
        cases op with
        | next => exact (ho (by simp)).elim
        | enqueueCommand cmd => simp only [Client.call] at hc; cases hc; rfl
        | enqueueInput b =>
          simp only [Client.call] at hc
          cases he : c.enqueueInput b with
          | error p => rw [he] at hc; cases hc
          | ok y => rw [he] at hc; cases hc; rfl
        | setAuthenticateData d =>
          simp only [Client.call] at hc
          cases he : c.setAuthenticateData L d with
          | error p => rw [he] at hc; cases hc
          | ok y => rw [he] at hc; cases hc; rfl
        | setIdleDone =>
          simp only [Client.call] at hc
          cases he : c.setIdleDone L with
          | error p => rw [he] at hc; cases hc
          | ok y => rw [he] at hc; cases hc; rfl
    | deliver b =>
      simp only [Machine.replay, clientMachine] at h
      cases hc : c.enqueueInput b with
      | error p => rw [hc] at h; cases h
      | ok c1 =>
        rw [hc] at h
        exact step (.enqueueInput b) (.input b) c1 rfl (by simp [Client.call, hc, Except.map]) h (fun _ => rfl)
    | poll r =>
      simp only [Machine.replay, clientMachine] at h
      cases hc : c.next L with
      | error p => rw [hc] at h; cases h
      | ok x =>
        obtain ⟨c1, r'⟩ := x
        rw [hc] at h
        simp only at h
        split at h
        · rename_i e
          subst e
          refine step .next (.next r') c1 rfl (by simp [Client.call, hc, Except.map]) h (fun _ => ?_)
          rcases r' with (⟨_ | b⟩ | e) | e <;> simp [ClientObs.outputs, streamOutput]
        · cases h
    | _ => exact skip rfl rfl h

/-- The calls of a stream on a client as a trace of the client. -/
theorem stream_client_trace {L : Lib} {T : List (StreamItem ClientError ClientEvent ClientOp)} {c c' : Client}
    (h : (clientMachine L).replay c T = some c') :
    ∃ U, Client.trace L c (streamClientOps T) = .ok (c', U) ∧ (StreamOwned T → clientOutput U = streamOutput T) := by
  obtain ⟨H, h1, h2⟩ := stream_client_run h
  have h3 := Client.trace_erase L c (streamClientOps T)
  rw [h1] at h3
  cases ht : c.trace L (streamClientOps T) with
  | error p => rw [ht] at h3; cases h3
  | ok x =>
    obtain ⟨c1, U⟩ := x
    rw [ht] at h3
    simp only [Client.eraseRes, Except.ok.injEq, Prod.mk.injEq] at h3
    refine ⟨U, by rw [h3.1], fun ho => ?_⟩
    rw [CItem.outputs_erase, h3.2, h2 ho]

/-- A trace whose history ends with an event. -/
theorem trace_last_event {U : List CItem} {H : List ClientObs} {e : ClientEvent}
    (h : U.filterMap CItem.erase = H ++ [.next (.ok e)]) (ht : e.isTerminal = true) :
    (ClientView.of U).sent = [] ∧ ∃ en E, (ClientView.of U).ended = E ++ [en] ∧ en.event = e := by
  induction U using snocInduction with
  | nil => simp at h
  | snoc U i ih =>
    rw [List.filterMap_append] at h
    rw [ClientView.of_snoc]
    cases i with
    | released w =>
      simp only [List.filterMap_cons, CItem.erase, List.filterMap_nil, List.append_nil] at h
      exact ih h
    | sent e' =>
      simp only [List.filterMap_cons, CItem.erase, List.filterMap_nil] at h
      obtain ⟨-, h⟩ := List.append_inj' h rfl
      injection h with h
      injection h with h
      injection h with h
      subst h
      simp only [ClientView.observe, ClientView.event, ht, if_true, ClientView.terminate, true_and]
      exact ⟨_, _, rfl, rfl⟩
    | received w e' =>
      simp only [List.filterMap_cons, CItem.erase, List.filterMap_nil] at h
      obtain ⟨-, h⟩ := List.append_inj' h rfl
      injection h with h
      injection h with h
      injection h with h
      subst h
      simp only [ClientView.observe, ClientView.event, ht, if_true, ClientView.terminate, true_and]
      exact ⟨_, _, rfl, rfl⟩
    | _ =>
      simp only [List.filterMap_cons, CItem.erase, List.filterMap_nil] at h
      obtain ⟨-, h⟩ := List.append_inj' h rfl
      simp at h

theorem Client.run_snoc {L : Lib} {ops : List ClientOp} {c c4 : Client} {H0 : List ClientObs}
    (h : Client.run L c ops = .ok (c4, H0)) :
    Client.run L c (ops ++ [.next]) =
      match c4.call L .next with
      | .error p => .error p
      | .ok (c5, obs) => .ok (c5, H0 ++ [obs]) := by
  induction ops generalizing c H0 with
  | nil =>
    simp only [Client.run] at h
    cases h
    simp only [List.nil_append, Client.run]
    cases c4.call L .next <;> rfl
  | cons op ops ih =>
    simp only [Client.run, List.cons_append] at h ⊢
    cases hcall : c.call L op with
    | error p => rw [hcall] at h; cases h
    | ok z =>
      obtain ⟨c6, obs⟩ := z
      rw [hcall] at h
      simp only at h ⊢
      cases hrun2 : Client.run L c6 ops with
      | error p => rw [hrun2] at h; cases h
      | ok w =>
        obtain ⟨c7, H7⟩ := w
        rw [hrun2] at h
        cases h
        rw [ih hrun2]
        cases c4.call L .next <;> rfl

/-- When `next` of a stream returns `CommandSent`, the bytes of the command are the last ones the client handed
out. -/
theorem stream_commandSent {L : Lib} (hL : L.Lawful) {g : HandleGenerator} {o : ClientOptions}
    {as : List (StreamAct ClientOp)} {c : StreamConf Client}
    {pre post : List (StreamItem ClientError ClientEvent ClientOp)} {hd : RawHandle} {cmd : Command}
    (h : StreamConf.run (clientMachine L) (.insecure (Client.new g o)) as =
      some (c, pre ++ .returned (.ok (.commandSent hd cmd)) :: post))
    (ho : StreamOwned pre) : wire (L.encodeCommand cmd) <:+ streamOutput pre := by
  obtain ⟨as1, a, as2, c1, c2, T1, T2, q, q', -, h1, h2, -, rfl, -⟩ := StreamConf.run_split h
  rcases (StreamConf.step_shape h2).returned with ⟨x, c0, q1, rfl, -, rfl, hadv⟩ | ⟨y, -, -, h3 | h3⟩
  · obtain ⟨⟨q2, y, rfl, hy⟩, hidle, rfl, -⟩ := ((StreamConf.advance_spec (clientMachine L) c0).2.split hadv).2.1 _ rfl
    simp only [StreamItem.Explains] at hy
    subst hy
    have hrun : StreamConf.run (clientMachine L) (.insecure (Client.new g o)) (as1 ++ [a]) =
        some ((StreamConf.advance (clientMachine L) c0).1,
          T1 ++ (x :: (q2 ++ [.poll (.ok (.commandSent hd cmd))]) ++ [.returned (.ok (.commandSent hd cmd))])) := by
      rw [StreamConf.run_append, h1]
      simp only [StreamConf.run, h2, Option.bind_some, Option.map_some, List.append_nil]
    have hrep := (StreamConf.run_moves (StreamConf.insecure_ok _) hrun).replay (by rw [hidle]; simp)
    rw [show T1 ++ (x :: (q2 ++ [.poll (.ok (.commandSent hd cmd))]) ++ [.returned (.ok (.commandSent hd cmd))]) =
      (T1 ++ x :: q2) ++ [.poll (.ok (.commandSent hd cmd))] ++ [.returned (.ok (.commandSent hd cmd))] by simp,
      Machine.replay_append] at hrep
    cases hrep1 : (clientMachine L).replay (StreamConf.insecure (Client.new g o)).state
        ((T1 ++ x :: q2) ++ [.poll (.ok (.commandSent hd cmd))]) with
    | none => rw [hrep1] at hrep; cases hrep
    | some c' =>
      obtain ⟨H, e1, e2⟩ := stream_client_run hrep1
      have e3 := Client.trace_erase L (Client.new g o) (streamClientOps ((T1 ++ x :: q2) ++ [.poll (.ok (.commandSent hd cmd))]))
      rw [show (StreamConf.insecure (Client.new g o)).state = Client.new g o from rfl] at e1
      rw [e1] at e3
      cases ht : (Client.new g o).trace L (streamClientOps ((T1 ++ x :: q2) ++ [.poll (.ok (.commandSent hd cmd))])) with
      | error p => rw [ht] at e3; cases e3
      | ok y =>
        obtain ⟨c3, U⟩ := y
        rw [ht] at e3
        simp only [Client.eraseRes, Except.ok.injEq, Prod.mk.injEq] at e3
        -- the history ends with the event
        have hlast : ∃ H0, H = H0 ++ [.next (.ok (.commandSent hd cmd))] := by
          rw [Machine.replay_append] at hrep1
          cases hrep2 : (clientMachine L).replay (StreamConf.insecure (Client.new g o)).state (T1 ++ x :: q2) with
          | none => rw [hrep2] at hrep1; cases hrep1
          | some c4 =>
            rw [hrep2] at hrep1
            obtain ⟨H0, f1, -⟩ := stream_client_run hrep2
            refine ⟨H0, ?_⟩
            have f3 := Client.run_snoc f1
            simp only [Option.bind_some, Machine.replay, clientMachine] at hrep1
            cases hn : c4.next L with
            | error p => rw [hn] at hrep1; cases hrep1
            | ok z =>
              obtain ⟨c5, r⟩ := z
              rw [hn] at hrep1
              simp only at hrep1
              split at hrep1
              · rename_i hr
                subst hr
                rw [show streamClientOps ((T1 ++ x :: q2) ++ [.poll (.ok (.commandSent hd cmd))]) =
                  streamClientOps (T1 ++ x :: q2) ++ [.next] by
                    unfold streamClientOps; rw [List.filterMap_append]; rfl] at e1
                rw [show (StreamConf.insecure (Client.new g o)).state = Client.new g o from rfl] at f3
                rw [f3] at e1
                simp only [Client.call, hn, Except.map, Except.ok.injEq, Prod.mk.injEq] at e1
                exact e1.2.symm
              · cases hrep1
        obtain ⟨H0, hH⟩ := hlast
        rw [hH] at e3
        obtain ⟨g1, en, E, g2, g3⟩ := trace_last_event e3.2 rfl
        have ht' : (Client.new g o).trace L (streamClientOps ((T1 ++ x :: q2) ++ [.poll (.ok (.commandSent hd cmd))])) =
            .ok (c3, U) := ht
        obtain ⟨z, -, g4⟩ := Client.trace_ended hL ht' E.length en (by rw [g2]; simp)
        have g5 : en.sent = wire (L.encodeCommand cmd) := by
          unfold EndedAs at g4
          obtain ⟨zh, ztag, zbody⟩ := z
          cases zbody with
          | authenticate m ir => simp only [g3] at g4; obtain ⟨st, g4, -⟩ := g4; cases g4
          | idle =>
            simp only [g3] at g4
            rcases g4 with ⟨g4, -⟩ | ⟨st, g4, -⟩ <;> cases g4
          | other b =>
            simp only [g3] at g4
            rcases g4 with ⟨g4, g5⟩ | ⟨st, g4, -⟩
            · cases g4; exact g5
            · cases g4
        have g6 := (ClientView.of_fields U).2.2.2.2
        rw [g1, g2, List.append_nil, List.flatMap_append] at g6
        have g7 : clientOutput U = streamOutput (T1 ++ x :: (q2 ++ [.poll (.ok (.commandSent hd cmd))])) := by
          rw [CItem.outputs_erase, e3.2, ← hH, e2]
          · simp
          · simpa using ho
        rw [← g7, ← g6, ← g5]
        simp [List.suffix_append]
  · cases h3
  · cases h3

end ImapFlow
