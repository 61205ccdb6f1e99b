import Verif.Spec.Net
import Verif.Proofs.ClientView
import Verif.Proofs.ServerView
import Verif.Proofs.ServerReads
import Verif.Proofs.ClientReads

/-!
# The traces of both sides of a connection
-/

namespace ImapFlow

theorem clientItems_append (T U : List NItem) : clientItems (T ++ U) = clientItems T ++ clientItems U := by
  simp [clientItems]

theorem serverItems_append (T U : List NItem) : serverItems (T ++ U) = serverItems T ++ serverItems U := by
  simp [serverItems]

theorem clientItems_map_client (T : List CItem) : clientItems (T.map .client) = T := by
  simp [clientItems, List.filterMap_map, Function.comp_def, NItem.client?]

theorem serverItems_map_client (T : List CItem) : serverItems (T.map .client) = [] := by
  simp [serverItems, NItem.server?]

theorem clientItems_map_server (T : List SItem) : clientItems (T.map .server) = [] := by
  simp [clientItems, NItem.client?]

theorem serverItems_map_server (T : List SItem) : serverItems (T.map .server) = T := by
  simp [serverItems, List.filterMap_map, Function.comp_def, NItem.server?]

theorem Client.trace_append {L : Lib} {c : Client} (ops ops' : List ClientOp) : c.trace L (ops ++ ops') =
    match c.trace L ops with
    | .error p => .error p
    | .ok (c1, T) =>
      match c1.trace L ops' with
      | .error p => .error p
      | .ok (c2, U) => .ok (c2, T ++ U) := by
  induction ops generalizing c with
  | nil =>
    simp only [List.nil_append, trace]
    cases c.trace L ops' <;> rfl
  | cons op ops ih =>
    simp only [List.cons_append, trace]
    cases c.callTrace L op with
    | error p => rfl
    | ok x =>
      obtain ⟨c1, items⟩ := x
      simp only [ih]
      cases c1.trace L ops with
      | error p => rfl
      | ok y =>
        obtain ⟨c2, T⟩ := y
        simp only
        cases c2.trace L ops' with
        | error p => rfl
        | ok z => simp

theorem Server.trace_append {L : Lib} {s : Server} (ops ops' : List ServerOp) : s.trace L (ops ++ ops') =
    match s.trace L ops with
    | .error p => .error p
    | .ok (s1, T) =>
      match s1.trace L ops' with
      | .error p => .error p
      | .ok (s2, U) => .ok (s2, T ++ U) := by
  induction ops generalizing s with
  | nil =>
    simp only [List.nil_append, trace]
    cases s.trace L ops' <;> rfl
  | cons op ops ih =>
    simp only [List.cons_append, trace]
    cases s.callTrace L op with
    | error p => rfl
    | ok x =>
      obtain ⟨c1, items⟩ := x
      simp only [ih]
      cases c1.trace L ops with
      | error p => rfl
      | ok y =>
        obtain ⟨c2, T⟩ := y
        simp only
        cases c2.trace L ops' with
        | error p => rfl
        | ok z => simp

/-- Nothing arrives before it was sent, at any moment of the trace. -/
def Causal (T : List NItem) : Prop :=
  ∀ T1 T2, T = T1 ++ T2 → clientGiven (clientItems T1) <+: serverOutput (serverItems T1) ∧
    serverGiven (serverItems T1) <+: clientOutput (clientItems T1)

/-- What links the trace of the system to the two sides. -/
structure Net.Linked (L : Lib) (gc : HandleGenerator) (oc : ClientOptions) (gs : HandleGenerator)
    (os : ServerOptions) (gr : Greeting) (n : Net) (T : List NItem) : Prop where
  client : ∃ ops, (Client.new gc oc).trace L ops = .ok (n.client, clientItems T)
  server : ∃ ops, (Server.new gs os gr).trace L ops = .ok (n.server, serverItems T)
  toClient : clientGiven (clientItems T) ++ n.toClient = serverOutput (serverItems T)
  toServer : serverGiven (serverItems T) ++ n.toServer = clientOutput (clientItems T)
  causal : Causal T

theorem Causal.extend {T U : List NItem} (h : Causal T)
    (hU : ∀ U1 U2, U = U1 ++ U2 → clientGiven (clientItems (T ++ U1)) <+: serverOutput (serverItems (T ++ U1)) ∧
      serverGiven (serverItems (T ++ U1)) <+: clientOutput (clientItems (T ++ U1))) : Causal (T ++ U) := by
  intro T1 T2 he
  rcases List.append_eq_append_iff.mp he with ⟨a, h1, h2⟩ | ⟨a, h1, h2⟩
  · rw [h1]
    exact hU a T2 h2
  · exact h T1 a h1

theorem prefix_append_right {a b c : Bytes} (h : a <+: b) : a <+: b ++ c := h.trans (List.prefix_append b c)

variable {L : Lib} {gc gs : HandleGenerator} {oc : ClientOptions} {os : ServerOptions} {gr : Greeting}
  {n n' : Net} {T U : List NItem}

/-- A call of `next` handles continuation requests silently before it returns. -/
theorem Client.nextTrace_shape {c c' : Client} {T : List CItem} (h : c.nextTrace L = .ok (c', T)) :
    ∃ (ws : List Bytes) (i : CItem), T = ws.map .released ++ [i] ∧ i.isNext = true ∧ ∀ w, i ≠ .released w := by
  fun_induction Client.nextTrace L c generalizing T c' with
  | case12 c c1 hs c2 hr c3 items hn ih =>
    cases h
    obtain ⟨ws, i, rfl, h1, h2⟩ := ih hn
    exact ⟨_ :: ws, i, rfl, h1, h2⟩
  | _ => first | (cases h; done) | (cases h; exact ⟨[], _, rfl, rfl, by simp⟩)

/-- A call of `next` accepts literals and finishes its own responses silently before it returns. -/
theorem Server.nextTrace_shape {s s' : Server} {T : List SItem} (h : s.nextTrace L = .ok (s', T)) :
    ∃ (U : List SItem) (i : SItem), T = U ++ [i] ∧ i.erase ≠ none ∧
      ∀ j ∈ U, j = .quiet ∨ ∃ p rs, j = .literal p rs := by
  have hq : ∀ s : Server, ∀ i ∈ quietItems s, i = .quiet := by
    intro s i hi
    unfold quietItems at hi
    split at hi
    · exact List.mem_singleton.mp hi
    · cases hi
  fun_induction Server.nextTrace L s generalizing T s' with
  | case11 s s1 hs s2 hr s3 items hn ih =>
    cases h
    obtain ⟨U, i, rfl, h1, h2⟩ := ih hn
    refine ⟨quietItems s ++ .literal s2.seen (replies s1 s2) :: U, i, by simp, h1, ?_⟩
    intro j hj
    rcases List.mem_append.mp hj with hj | hj
    · exact .inl (hq s j hj)
    · rcases List.mem_cons.mp hj with rfl | hj
      · exact .inr ⟨_, _, rfl⟩
      · exact h2 j hj
  | _ => first
    | (cases h; done)
    | (cases h; exact ⟨[], _, rfl, by simp [SItem.erase], by simp⟩)
    | (cases h; exact ⟨_, _, rfl, by simp [SItem.erase], fun j hj => .inl (hq _ j hj)⟩)

/-- What a call on the client adds to its trace. -/
theorem Client.callTrace_given {c c' : Client} {op : ClientOp} {T : List CItem} (h : c.callTrace L op = .ok (c', T)) :
    (∃ b, op = .enqueueInput b ∧ T = [.input b]) ∨ ((∀ b, op ≠ .enqueueInput b) ∧ ∀ i ∈ T, i.given = []) := by
  cases op with
  | enqueueInput b =>
    left
    simp only [callTrace] at h
    cases hx : c.enqueueInput b with
    | error p => rw [hx] at h; cases h
    | ok c1 => rw [hx] at h; cases h; exact ⟨b, rfl, rfl⟩
  | enqueueCommand cmd =>
    right
    refine ⟨by simp, ?_⟩
    simp only [callTrace] at h
    cases h
    simp [CItem.given]
  | setAuthenticateData d =>
    right
    refine ⟨by simp, ?_⟩
    simp only [callTrace] at h
    cases hx : c.setAuthenticateData L d with
    | error p => rw [hx] at h; cases h
    | ok c1 => rw [hx] at h; cases h; simp [CItem.given]
  | setIdleDone =>
    right
    refine ⟨by simp, ?_⟩
    simp only [callTrace] at h
    cases hx : c.setIdleDone L with
    | error p => rw [hx] at h; cases h
    | ok c1 => rw [hx] at h; cases h; simp [CItem.given]
  | next =>
    right
    refine ⟨by simp, ?_⟩
    simp only [callTrace] at h
    fun_induction Client.nextTrace L c generalizing T c' with
    | case12 c c1 hs c2 hr c3 items hn ih =>
      cases h
      intro i hi
      rcases List.mem_cons.mp hi with rfl | hi
      · rfl
      · exact ih hn i hi
    | _ => first | (cases h; done) | (cases h; simp [CItem.given])

theorem Server.callTrace_given {s s' : Server} {op : ServerOp} {T : List SItem} (h : s.callTrace L op = .ok (s', T)) :
    (∃ b, op = .enqueueInput b ∧ T = [.input b]) ∨ ((∀ b, op ≠ .enqueueInput b) ∧ ∀ i ∈ T, i.given = []) := by
  have hq : ∀ s : Server, ∀ i ∈ quietItems s, i.given = [] := by
    intro s i hi
    unfold quietItems at hi
    split at hi
    · rw [List.mem_singleton.mp hi]; rfl
    · cases hi
  have hq' : ∀ (s : Server) (x : SItem), x.given = [] → ∀ i ∈ quietItems s ++ [x], i.given = [] := by
    intro s x hx i hi
    rcases List.mem_append.mp hi with hi | hi
    · exact hq s i hi
    · rw [List.mem_singleton.mp hi]; exact hx
  cases op with
  | enqueueInput b =>
    left
    simp only [callTrace] at h
    cases hx : s.enqueueInput b with
    | error p => rw [hx] at h; cases h
    | ok c1 => rw [hx] at h; cases h; exact ⟨b, rfl, rfl⟩
  | enqueueData d => cases h; exact .inr ⟨by simp, by simp [SItem.given]⟩
  | enqueueStatus d => cases h; exact .inr ⟨by simp, by simp [SItem.given]⟩
  | enqueueContinuationRequest d => cases h; exact .inr ⟨by simp, by simp [SItem.given]⟩
  | authenticateContinue d => cases h; exact .inr ⟨by simp, by simp [SItem.given]⟩
  | authenticateFinish d =>
    simp only [callTrace] at h
    cases hx : s.authenticateFinish d with
    | error p => rw [hx] at h; cases h
    | ok c1 => rw [hx] at h; cases h; exact .inr ⟨by simp, by simp [SItem.given]⟩
  | idleAccept d =>
    simp only [callTrace] at h
    cases hx : s.idleAccept d with
    | error p => rw [hx] at h; cases h
    | ok c1 => rw [hx] at h; cases h; exact .inr ⟨by simp, by simp [SItem.given]⟩
  | idleReject d =>
    simp only [callTrace] at h
    cases hx : s.idleReject d with
    | error p => rw [hx] at h; cases h
    | ok c1 => rw [hx] at h; cases h; exact .inr ⟨by simp, by simp [SItem.given]⟩
  | next =>
    right
    refine ⟨by simp, ?_⟩
    simp only [callTrace] at h
    fun_induction Server.nextTrace L s generalizing T s' with
    | case11 s s1 hs s2 hr s3 items hn ih =>
      cases h
      intro i hi
      rcases List.mem_append.mp hi with hi | hi
      · exact hq s i hi
      · rcases List.mem_cons.mp hi with rfl | hi
        · rfl
        · exact ih hn i hi
    | _ => first | (cases h; done) | (cases h; simp [SItem.given]; done) | (cases h; exact hq' _ _ rfl)

theorem clientGiven_nil {T : List CItem} (h : ∀ i ∈ T, i.given = []) : clientGiven T = [] := by
  unfold clientGiven
  exact List.flatMap_eq_nil_iff.mpr h

theorem serverGiven_nil {T : List SItem} (h : ∀ i ∈ T, i.given = []) : serverGiven T = [] := by
  unfold serverGiven
  exact List.flatMap_eq_nil_iff.mpr h

theorem map_append_cases {α β : Type} {f : α → β} {l : List α} {U1 U2 : List β} (h : l.map f = U1 ++ U2) :
    ∃ l1 l2, l = l1 ++ l2 ∧ U1 = l1.map f ∧ U2 = l2.map f := by
  obtain ⟨l1, l2, h1, h2, h3⟩ := List.map_eq_append_iff.mp h
  exact ⟨l1, l2, h1, h2.symm, h3.symm⟩

namespace Net

theorem Linked.callClient {op : ClientOp} {b : Bytes}
    (h : Linked L gc oc gs os gr { n with toClient := b ++ n.toClient } T) (hb : op = .enqueueInput b ∨ b = [])
    (hop : b = [] → ∀ b, op ≠ .enqueueInput b ∨ b = [])
    (hs : n.callClient L op = .ok (n', U)) : Linked L gc oc gs os gr n' (T ++ U) := by
  unfold Net.callClient at hs
  cases hc : n.client.callTrace L op with
  | error p => rw [hc] at hs; cases hs
  | ok x =>
    obtain ⟨c, V⟩ := x
    rw [hc] at hs
    cases hs
    obtain ⟨⟨ops, h1⟩, ⟨ops', h2⟩, h3, h4, h5⟩ := h
    simp only at h1 h2 h3 h4
    have hV : clientGiven V = b ∧ ∀ V1 V2, V = V1 ++ V2 → clientGiven V1 <+: b := by
      rcases Client.callTrace_given hc with ⟨b', rfl, rfl⟩ | ⟨hn, hg⟩
      · have : b = b' := by
          rcases hb with hb | hb
          · cases hb; rfl
          · rcases hop hb b' with h | h
            · exact absurd rfl h
            · rw [hb, h]
        subst this
        refine ⟨by simp [clientGiven, CItem.given], ?_⟩
        intro V1 V2 hV
        cases V1 with
        | nil => exact List.nil_prefix
        | cons x V1 =>
          simp only [List.cons_append, List.cons.injEq] at hV
          obtain ⟨rfl, hV⟩ := hV
          obtain ⟨rfl, rfl⟩ := List.append_eq_nil_iff.mp hV.symm
          simp [clientGiven, CItem.given]
      · have hb' : b = [] := by
          rcases hb with hb | hb
          · exact absurd hb (hn b)
          · exact hb
        refine ⟨by rw [clientGiven_nil hg, hb'], ?_⟩
        rintro V1 V2 rfl
        rw [clientGiven_nil fun i hi => hg i (by simp [hi])]
        exact List.nil_prefix
    refine ⟨⟨ops ++ [op], ?_⟩, ⟨ops', ?_⟩, ?_, ?_, h5.extend ?_⟩
    · rw [Client.trace_append, h1]
      simp only [Client.trace, hc, clientItems_append, clientItems_map_client, List.append_nil]
    · simp only [serverItems_append, serverItems_map_client, List.append_nil, h2]
    · simp only [serverItems_append, serverItems_map_client, List.append_nil, clientItems_append,
        clientItems_map_client, clientGiven_append, hV.1, ← h3, List.append_assoc]
    · simp only [serverItems_append, serverItems_map_client, List.append_nil, clientItems_append,
        clientItems_map_client, clientOutput_append, ← h4, List.append_assoc]
    · intro U1 U2 hU
      obtain ⟨V1, V2, rfl, rfl, rfl⟩ := map_append_cases hU
      simp only [serverItems_append, serverItems_map_client, List.append_nil, clientItems_append,
        clientItems_map_client, clientOutput_append, clientGiven_append, ← h3, ← h4]
      refine ⟨?_, prefix_append_right (List.prefix_append ..)⟩
      rw [List.prefix_append_right_inj]
      exact (hV.2 V1 V2 rfl).trans (List.prefix_append ..)

theorem Linked.callServer {op : ServerOp} {b : Bytes}
    (h : Linked L gc oc gs os gr { n with toServer := b ++ n.toServer } T) (hb : op = .enqueueInput b ∨ b = [])
    (hop : b = [] → ∀ b, op ≠ .enqueueInput b ∨ b = [])
    (hs : n.callServer L op = .ok (n', U)) : Linked L gc oc gs os gr n' (T ++ U) := by
  unfold Net.callServer at hs
  cases hc : n.server.callTrace L op with
  | error p => rw [hc] at hs; cases hs
  | ok x =>
    obtain ⟨c, V⟩ := x
    rw [hc] at hs
    cases hs
    obtain ⟨⟨ops, h1⟩, ⟨ops', h2⟩, h3, h4, h5⟩ := h
    simp only at h1 h2 h3 h4
    have hV : serverGiven V = b ∧ ∀ V1 V2, V = V1 ++ V2 → serverGiven V1 <+: b := by
      rcases Server.callTrace_given hc with ⟨b', rfl, rfl⟩ | ⟨hn, hg⟩
      · have : b = b' := by
          rcases hb with hb | hb
          · cases hb; rfl
          · rcases hop hb b' with h | h
            · exact absurd rfl h
            · rw [hb, h]
        subst this
        refine ⟨by simp [serverGiven, SItem.given], ?_⟩
        intro V1 V2 hV
        cases V1 with
        | nil => exact List.nil_prefix
        | cons x V1 =>
          simp only [List.cons_append, List.cons.injEq] at hV
          obtain ⟨rfl, hV⟩ := hV
          obtain ⟨rfl, rfl⟩ := List.append_eq_nil_iff.mp hV.symm
          simp [serverGiven, SItem.given]
      · have hb' : b = [] := by
          rcases hb with hb | hb
          · exact absurd hb (hn b)
          · exact hb
        refine ⟨by rw [serverGiven_nil hg, hb'], ?_⟩
        rintro V1 V2 rfl
        rw [serverGiven_nil fun i hi => hg i (by simp [hi])]
        exact List.nil_prefix
    refine ⟨⟨ops, ?_⟩, ⟨ops' ++ [op], ?_⟩, ?_, ?_, h5.extend ?_⟩
    · simp only [clientItems_append, clientItems_map_server, List.append_nil, h1]
    · rw [Server.trace_append, h2]
      simp only [Server.trace, hc, serverItems_append, serverItems_map_server, List.append_nil]
    · simp only [serverItems_append, serverItems_map_server, List.append_nil, clientItems_append,
        clientItems_map_server, serverOutput_append, ← h3, List.append_assoc]
    · simp only [serverItems_append, serverItems_map_server, List.append_nil, clientItems_append,
        clientItems_map_server, serverGiven_append, hV.1, ← h4, List.append_assoc]
    · intro U1 U2 hU
      obtain ⟨V1, V2, rfl, rfl, rfl⟩ := map_append_cases hU
      simp only [serverItems_append, serverItems_map_server, List.append_nil, clientItems_append,
        clientItems_map_server, serverOutput_append, serverGiven_append, ← h3, ← h4]
      refine ⟨prefix_append_right (List.prefix_append ..), ?_⟩
      rw [List.prefix_append_right_inj]
      exact (hV.2 V1 V2 rfl).trans (List.prefix_append ..)

theorem Linked.step {op : NetOp} (h : Linked L gc oc gs os gr n T) (hs : n.step L op = .ok (n', U)) :
    Linked L gc oc gs os gr n' (T ++ U) := by
  cases op with
  | client op =>
    cases op with
    | enqueueInput b => cases hs; simpa using h
    | _ =>
      simp only [Net.step] at hs
      exact Linked.callClient (b := []) h (.inr rfl) (fun _ b => .inl (by simp)) hs
  | server op =>
    cases op with
    | enqueueInput b => cases hs; simpa using h
    | _ =>
      simp only [Net.step] at hs
      exact Linked.callServer (b := []) h (.inr rfl) (fun _ b => .inl (by simp)) hs
  | deliverToClient k =>
    refine Linked.callClient (b := n.toClient.take k) ?_ (.inl rfl) (fun h b => ?_) hs
    · simpa using h
    · rw [h]
      by_cases hb : b = []
      · exact .inr hb
      · left
        intro he
        cases he
        exact hb rfl
  | deliverToServer k =>
    refine Linked.callServer (b := n.toServer.take k) ?_ (.inl rfl) (fun h b => ?_) hs
    · simpa using h
    · rw [h]
      by_cases hb : b = []
      · exact .inr hb
      · left
        intro he
        cases he
        exact hb rfl

theorem Linked.run {ops : List NetOp} (h : Linked L gc oc gs os gr n T) (hs : n.run L ops = .ok (n', U)) :
    Linked L gc oc gs os gr n' (T ++ U) := by
  induction ops generalizing n T U with
  | nil => cases hs; simpa using h
  | cons op ops ih =>
    simp only [Net.run] at hs
    cases h1 : n.step L op with
    | error p => rw [h1] at hs; cases hs
    | ok x =>
      obtain ⟨n1, V⟩ := x
      rw [h1] at hs
      simp only at hs
      cases h2 : n1.run L ops with
      | error p => rw [h2] at hs; cases hs
      | ok y =>
        obtain ⟨n2, W⟩ := y
        rw [h2] at hs
        cases hs
        rw [← List.append_assoc]
        exact ih (h.step h1) h2

theorem run_linked {ops : List NetOp} (h : (Net.new gc oc gs os gr).run L ops = .ok (n, T)) :
    Linked L gc oc gs os gr n T := by
  have h0 : Linked L gc oc gs os gr (Net.new gc oc gs os gr) [] := by
    refine ⟨⟨[], rfl⟩, ⟨[], rfl⟩, rfl, rfl, ?_⟩
    intro T1 T2 hT
    obtain ⟨rfl, -⟩ := List.append_eq_nil_iff.mp hT.symm
    exact ⟨List.nil_prefix, List.nil_prefix⟩
  simpa using h0.run h

end Net

end ImapFlow
