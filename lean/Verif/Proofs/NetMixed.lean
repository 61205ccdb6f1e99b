import Verif.Proofs.NetReject
import Verif.Proofs.StreamNet
import Verif.Proofs.NetStuck

/-!
# The messages of a server that may reject literals
-/

namespace ImapFlow

variable {L : Lib} {gc gs : HandleGenerator} {oc : ClientOptions} {os : ServerOptions} {gr : Greeting}
  {n : Net} {T : List NItem}

theorem MixedCommands.of_prefix {E E' : List (RawHandle × Command)} (h : MixedCommands L os E) (he : E' <+: E) :
    MixedCommands L os E' where
  regular x hx := h.regular x (he.subset hx)
  roundTrip x hx := h.roundTrip x (he.subset hx)
  size x hx := h.size x (he.subset hx)
  sync x hx := h.sync x (he.subset hx)
  tags := (he.sublist.map _).nodup h.tags

theorem PoliteServer.of_prefix {T' : List NItem} (h : PoliteServer gr (T ++ T')) : PoliteServer gr T where
  continuation hd q hm := h.continuation hd q (by
    rw [serverItems_append, serverMessages_append]
    exact List.mem_append_left _ hm)
  bad T1 i T2 hd tag body hT := h.bad T1 i (T2 ++ T') hd tag body (by rw [hT]; simp)

/-- A step belongs to one side. -/
theorem Net.step_sides {n' : Net} {op : NetOp} {X : List NItem} (h : n.run L [op] = .ok (n', X)) :
    serverItems X = [] ∨ clientItems X = [] := by
  have client : ∀ (m : Net) (o : ClientOp) m' Y, m.callClient L o = .ok (m', Y) → serverItems Y = [] := by
    intro m o m' Y hY
    unfold Net.callClient at hY
    split at hY <;> cases hY
    exact serverItems_map_client _
  have server : ∀ (m : Net) (o : ServerOp) m' Y, m.callServer L o = .ok (m', Y) → clientItems Y = [] := by
    intro m o m' Y hY
    unfold Net.callServer at hY
    split at hY <;> cases hY
    exact clientItems_map_server _
  simp only [Net.run] at h
  split at h
  · cases h
  · rename_i m Y hY
    cases h
    rw [List.append_nil]
    unfold Net.step at hY
    split at hY
    · cases hY; exact .inl rfl
    · cases hY; exact .inl rfl
    · exact .inl (client _ _ _ _ hY)
    · exact .inr (server _ _ _ _ hY)
    · exact .inl (client _ _ _ _ hY)
    · exact .inr (server _ _ _ _ hY)

/-- The client can decode all messages of the server, if it can decode those of the user of the server and the answers of
the server to literals. -/
theorem Net.run_roundTrip (hL : L.Lawful) (hO : ServerOptions.Built L os) (hmax : 0 < os.maxCommandSize) {ops : List NetOp}
    (h : (Net.new gc oc gs os gr).run L ops = .ok (n, T))
    (hE : MixedCommands L os (clientEnqueued (clientItems T))) (hP : PoliteServer gr T)
    (hg : (ServerMessage.greeting gr).RoundTrip L oc)
    (hu : ∀ hd r, .response (some hd) r ∈ serverMessages gr (serverItems T) → (ServerMessage.response (some hd) r).RoundTrip L oc)
    (ha : (acceptMessage os).RoundTrip L oc)
    (hj : ∀ x ∈ clientEnqueued (clientItems T), ∀ m ∈ rejectReply os x.2.tag .sync, m.RoundTrip L oc) :
    ∀ m ∈ serverMessages gr (serverItems T), m.RoundTrip L oc := by
  induction ops using snocInduction generalizing n T with
  | nil =>
    cases h
    intro m hm
    cases List.mem_singleton.1 hm
    exact hg
  | snoc ops op ih =>
    have hlT := Net.run_linked h
    rw [Net.run_append] at h
    cases h1 : (Net.new gc oc gs os gr).run L ops with
    | error p => rw [h1] at h; cases h
    | ok x =>
      obtain ⟨n1, T1⟩ := x
      rw [h1] at h
      simp only [Except.map] at h
      cases h2 : n1.run L [op] with
      | error p => rw [h2] at h; cases h
      | ok y =>
        obtain ⟨n2, X⟩ := y
        rw [h2] at h
        cases h
        have hl1 := Net.run_linked h1
        have hpre : clientEnqueued (clientItems T1) <+: clientEnqueued (clientItems (T1 ++ X)) := by
          rw [clientItems_append, clientEnqueued_append]; exact List.prefix_append ..
        have IH := ih h1 (hE.of_prefix hpre) hP.of_prefix
          (fun hd r hm => hu hd r (by
            rw [serverItems_append, serverMessages_append]
            exact List.mem_append_left _ hm))
          (fun x hx => hj x (hpre.subset hx))
        rcases Net.step_sides h2 with h3 | h3
        · rwa [serverItems_append, h3, List.append_nil]
        · have hagr := hl1.agreed hL hO IH hmax (hE.of_prefix hpre) hP.of_prefix (P := T1) (Q := []) (by simp)
          have hcl : clientItems (T1 ++ X) = clientItems T1 := by rw [clientItems_append, h3, List.append_nil]
          obtain ⟨sops, hst⟩ := hlT.server
          have hgv := (hlT.causal (T1 ++ X) [] (by simp)).2
          rw [hcl] at hgv
          have hE' := hE
          rw [hcl] at hE'
          obtain ⟨k, m, hs⟩ := hE'.serverAt hO hmax (S' := []) (by rw [List.append_nil]; exact hst)
            (hgv.trans hagr.1.output.2)
          intro a hm
          cases a with
          | greeting g =>
            simp only [serverMessages, List.mem_cons] at hm
            rcases hm with hm | hm
            · cases hm; exact hg
            · obtain ⟨i, hi, hmi⟩ := List.mem_flatMap.mp hm
              obtain ⟨A, B, hAB⟩ := List.append_of_mem hi
              rw [hAB] at hst
              exact (Server.enqueues_not_greeting (Server.trace_guard hst) hmi).elim
          | response hd r =>
            cases hd with
            | some hd => exact hu hd r hm
            | none =>
              have : ServerMessage.response none r ∈ (serverMessages gr (serverItems (T1 ++ X))).filter ServerMessage.own :=
                List.mem_filter.2 ⟨hm, rfl⟩
              rw [hs.own] at this
              rcases List.mem_append.1 this with h5 | h5
              · obtain ⟨x, hx, h5⟩ := List.mem_flatMap.1 h5
                have hx := List.mem_of_mem_take hx
                rw [Command.answers] at h5
                rcases List.mem_append.1 h5 with h5 | h5
                · rw [(List.mem_replicate.1 h5).2]; exact ha
                · unfold Command.serverRead at h5
                  split at h5
                  · cases h5
                  · exact hj x (hpre.subset hx) _ h5
              · rw [(List.mem_replicate.1 h5).2]; exact ha

theorem said_own {m : ServerMessage} (h : m.own = true) : m.said? = none := by
  rcases m with g | ⟨_ | hd, r⟩
  · cases h
  · rfl
  · cases h

theorem own_said {ms : List ServerMessage} (h : ms.filter ServerMessage.own = ms) :
    ms.filterMap ServerMessage.said? = [] := by
  rw [List.filterMap_eq_nil_iff]
  intro m hm
  rw [← h] at hm
  exact said_own (List.mem_filter.1 hm).2

/-- What the user of the server says, is what it enqueues. -/
theorem Net.Linked.mixed_said (hL : L.Lawful) (h : Net.Linked L gc oc gs os gr n T) (hO : ServerOptions.Built L os)
    (hrt : ∀ m ∈ serverMessages gr (serverItems T), m.RoundTrip L oc) (hmax : 0 < os.maxCommandSize)
    (hE : MixedCommands L os (clientEnqueued (clientItems T))) (hP : PoliteServer gr T) :
    (serverMessages gr (serverItems T)).filterMap ServerMessage.said? = (serverItems T).filterMap SItem.told? := by
  obtain ⟨ops, hs⟩ := h.server
  have at' : ∀ P Q, T = P ++ Q → ∃ k m, ServerAt L os gr (clientEnqueued (clientItems T)) (serverItems P) k m := by
    intro P Q hT
    have hs' := hs
    rw [hT, serverItems_append] at hs'
    exact hE.serverAt hO hmax hs' ((h.causal P Q hT).2.trans (h.agreed hL hO hrt hmax hE hP hT).1.output.2)
  have hfail : ∀ e rs, .failed e rs ∈ serverItems T → rs.filter ServerMessage.own = rs := by
    intro e rs hi
    obtain ⟨k, m, hk⟩ := at' T [] (by simp)
    have : SItem.failed e rs ∈ (serverItems T).filter SItem.reads := List.mem_filter.mpr ⟨hi, rfl⟩
    rw [hk.reads] at this
    obtain ⟨x, -, hx⟩ := List.mem_map.mp this
    have := x.2.serverRead_own (L := L) (os := os)
    rw [hx] at this
    exact this
  have key : ∀ U V : List SItem, serverItems T = V ++ U →
      (U.flatMap SItem.enqueues).filterMap ServerMessage.said? = U.filterMap SItem.told? := by
    intro U
    induction U with
    | nil => intros; rfl
    | cons i U ih =>
      intro V e
      have ih := ih (V ++ [i]) (by simpa using e)
      have hs' := hs
      rw [e] at hs'
      have hv := Server.trace_guard hs'
      obtain ⟨P, Q, hPQ, hP1, -⟩ := serverItems_split e
      obtain ⟨k, m, hk⟩ := at' P _ hPQ
      have hph' : (ServerView.of gr V).phase = .command := by rw [ServerView.of_phase, ← hP1, hk.phase]
      rw [List.flatMap_cons, List.filterMap_append, ih, List.filterMap_cons]
      cases i with
      | enqueue hd r => cases r <;> rfl
      | authContinue q r =>
        cases r with
        | error _ => rfl
        | ok hd => obtain ⟨hp, -⟩ | ⟨-, hp⟩ := hv
                   · rw [hph'] at hp; cases hp
                   · cases hp
      | authFinish q r =>
        cases r with
        | error _ => rfl
        | ok hd => obtain ⟨hp, -⟩ | ⟨-, hp⟩ := hv
                   · rw [hph'] at hp; cases hp
                   · cases hp
      | idleAccept q r =>
        cases r with
        | error _ => rfl
        | ok hd => obtain ⟨hp, -⟩ | ⟨-, hp⟩ := hv
                   · rw [hph'] at hp; cases hp
                   · cases hp
      | idleReject q r =>
        cases r with
        | error _ => rfl
        | ok hd => obtain ⟨hp, -⟩ | ⟨-, hp⟩ := hv
                   · rw [hph'] at hp; cases hp
                   · cases hp
      | literal p rs =>
        obtain ⟨-, -, -, -, -, tag, k, mode, -, -, rfl⟩ := hv
        show (acceptReply L os mode).filterMap _ ++ _ = _
        rw [own_said]
        · rfl
        · rw [acceptReply_eq hO.usable, LiteralAnswer.own]
      | failed er rs =>
        show rs.filterMap _ ++ _ = _
        rw [own_said (hfail er rs (by rw [e]; simp))]
        rfl
      | _ => rfl
  exact key (serverItems T) [] rfl

/-- The client reports a beginning of what the user of the server enqueued. -/
theorem Net.Linked.mixed_heard (hL : L.Lawful) (h : Net.Linked L gc oc gs os gr n T) (hO : ServerOptions.Built L os)
    (hrt : ∀ m ∈ serverMessages gr (serverItems T), m.RoundTrip L oc) (hmax : 0 < os.maxCommandSize)
    (hE : MixedCommands L os (clientEnqueued (clientItems T))) (hP : PoliteServer gr T) :
    (clientItems T).filterMap CItem.heard? <+: (serverItems T).filterMap SItem.told? := by
  rw [(h.agreed hL hO hrt hmax hE hP (Q := []) (by simp)).2.2.1, ← h.mixed_said hL hO hrt hmax hE hP]
  exact (List.take_prefix _ _).filterMap _

end ImapFlow
