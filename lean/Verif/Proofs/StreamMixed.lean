import Verif.Proofs.NetMixed
import Verif.Proofs.NetSettled
import Verif.Proofs.StreamReject

/-!
# Two users of streams, if literals may be too long
-/

namespace ImapFlow

variable {K : Type} {paired : K → K → Prop} {L : Lib} {gc gs : HandleGenerator} {oc : ClientOptions} {os : ServerOptions}
  {gr : Greeting} {n : Net} {T : List NItem} {tc ts : Option (Tls K)} {as : List StreamNetAct} {sn : StreamNet K}
  {G : List StreamNetItem}

theorem Discarded.own {p : ServerPhase} {e : ServerError} {rs : List ServerMessage} (h : Discarded L os p e rs) :
    rs.filter ServerMessage.own = rs := by
  unfold Discarded at h
  split at h
  · split at h
    · obtain ⟨-, tag, k, mode, -, -, rfl⟩ := h
      exact rejectReply_own tag mode
    · rw [h.1]; rfl
    · rw [h.1]; rfl
  · rw [h.1]; rfl
  · exact h.elim
  · rw [h.1]; rfl

theorem SItem.requested_of_enqueues {v : ServerView} {i : SItem} (hv : Server.Guard L os v i) {hd : RawHandle} {r : Response}
    (h : .response (some hd) r ∈ i.enqueues) :
    i.requested? = some r := by
  cases i with
  | enqueue hd r => cases List.mem_singleton.1 h; rfl
  | authContinue q r =>
    cases r with
    | error _ => cases h
    | ok hd => cases List.mem_singleton.1 h; rfl
  | authFinish q r =>
    cases r with
    | error _ => cases h
    | ok hd => cases List.mem_singleton.1 h; rfl
  | idleAccept q r =>
    cases r with
    | error _ => cases h
    | ok hd => cases List.mem_singleton.1 h; rfl
  | idleReject q r =>
    cases r with
    | error _ => cases h
    | ok hd => cases List.mem_singleton.1 h; rfl
  | literal p rs =>
    obtain ⟨-, -, -, -, -, tag, k, mode, -, -, rfl⟩ := hv
    have h : ServerMessage.response (some hd) r ∈ acceptReply L os mode := h
    unfold acceptReply at h
    repeat' split at h
    all_goals simp at h
  | failed e rs =>
    have := Discarded.own hv.2.2.1
    have h : ServerMessage.response (some hd) r ∈ rs := h
    rw [← this] at h
    cases (List.mem_filter.1 h).2
  | _ => cases h

/-- What `next` returned in a part of a run, the state returned before. -/
theorem StreamNet.server_returned {sn sn' : StreamNet K} (h : sn.run L as = some (sn', G))
    {S1 S2 : List (StreamItem ServerError ServerEvent ServerOp)} (hS : atServer G = S1 ++ S2) :
    ∀ e ∈ events S1, .poll (.ok e) ∈ S1 := by
  obtain ⟨-, ss, hs⟩ := StreamNet.run_parts h
  have hn := FullStream.run_neighbours hs
  rw [← (StreamNet.serverPart_spec G).1] at hS
  obtain ⟨F1, F2, hF, h1, -⟩ := List.filterMap_eq_append_iff.1 (show List.filterMap _ _ = _ from hS)
  rw [hF] at hn
  have := hn.outcomes_prefix.subset
  simp only [pendingOutcome, Option.toList_none, List.nil_append] at this
  rw [show streamPart F1 = S1 from h1] at this
  intro e he
  obtain ⟨i, hi, hie⟩ := List.mem_filterMap.1 he
  have hx : Except.ok e ∈ S1.filterMap StreamItem.outcome? := by
    refine List.mem_filterMap.2 ⟨i, hi, ?_⟩
    cases i with
    | returned r => cases r <;> cases hie; rfl
    | _ => cases hie
  obtain ⟨j, hj, hje⟩ := List.mem_filterMap.1 (this hx)
  cases j with
  | poll r =>
    rcases r with (_ | _) | _ <;> cases hje
    exact hj
  | _ => cases hje

/-- The order of the responses of the user and of the results of the state. -/
theorem ServerRecord.split {S : List (StreamItem ServerError ServerEvent ServerOp)} {U1 U2 : List SItem} {i : SItem}
    {r : Response} (h : ServerRecord S (U1 ++ i :: U2)) (hi : i.requested? = some r) :
    ∃ S1 j S2, S = S1 ++ j :: S2 ∧ j.response? = some r ∧ ∀ e, .poll (.ok e) ∈ S1 → ∃ u ∈ U1, u.result? = some (.ok e) := by
  have h1 := h.order
  have hm : i.mark? = some (.inl r) := by unfold SItem.mark?; rw [hi]
  rw [List.filterMap_append, List.filterMap_cons, hm] at h1
  obtain ⟨S1, S2, rfl, h2, h3⟩ := List.filterMap_eq_append_iff.1 h1.symm
  obtain ⟨A, j, B, rfl, h4, h5, -⟩ := List.filterMap_eq_cons_iff.1 h3
  refine ⟨S1 ++ A, j, B, by simp, ?_, ?_⟩
  · unfold StreamItem.mark? at h5
    split at h5
    · cases h5; assumption
    · cases hp : j.poll? with
      | none => rw [hp] at h5; cases h5
      | some x => rw [hp] at h5; cases h5
  · intro e he
    have he' : (.inr (.ok e) : Response ⊕ Except (Interrupt ServerError) ServerEvent) ∈ U1.filterMap SItem.mark? := by
      rw [← h2]
      rcases List.mem_append.1 he with he | he
      · exact List.mem_filterMap.2 ⟨_, he, rfl⟩
      · exact absurd (h4 _ he) (by simp [StreamItem.mark?, StreamItem.response?, StreamItem.poll?])
    obtain ⟨u, hu, hue⟩ := List.mem_filterMap.1 he'
    refine ⟨u, hu, ?_⟩
    unfold SItem.mark? at hue
    split at hue
    · cases hue
    · cases hp : u.result? with
      | none => rw [hp] at hue; cases hue
      | some x => rw [hp] at hue; cases hue; rfl

/-- What the users do on streams, in terms of the calls on the client and the server. -/
theorem MixedUse.net (hL : L.Lawful) (hO : ServerOptions.Built L os) (hmax : 0 < os.maxCommandSize)
    (hh : Handshaken paired tc ts) (h : (StreamNet.new tc ts gc oc gs os gr).run L as = some (sn, G))
    (hr : .client .refused ∉ G ∧ .server .refused ∉ G)
    (hT : (Net.new gc oc gs os gr).run L (G.flatMap StreamNetItem.calls) = .ok (n, T)) (hu : MixedUse L oc os gr (atClient G) (atServer G)) :
    MixedCommands L os (clientEnqueued (clientItems T)) ∧ PoliteServer gr T ∧
    ∀ m ∈ serverMessages gr (serverItems T), m.RoundTrip L oc := by
  obtain ⟨-, h3, h4, -⟩ := StreamNet.traced hL hO hh h hr hT
  have hl := Net.run_linked hT
  have hen : ∀ x ∈ clientEnqueued (clientItems T), x.2 ∈ (atClient G).filterMap StreamItem.enqueued? := by
    intro x hx
    rw [← h3.enqueued]
    exact List.mem_map_of_mem hx
  have hE : MixedCommands L os (clientEnqueued (clientItems T)) := by
    refine ⟨fun x hx => hu.regular _ (hen x hx), fun x hx => hu.roundTrip _ (hen x hx), fun x hx => hu.size _ (hen x hx),
      fun x hx => hu.sync _ (hen x hx), ?_⟩
    have := hu.tags
    rwa [← h3.enqueued, List.map_map] at this
  have hreq : ∀ hd r, .response (some hd) r ∈ serverMessages gr (serverItems T) →
      r ∈ (atServer G).filterMap StreamItem.response? := by
    intro hd r hm
    rcases List.mem_cons.1 hm with hm | hm
    · cases hm
    · obtain ⟨i, hi, hmi⟩ := List.mem_flatMap.1 hm
      obtain ⟨v, hv⟩ := hl.server_guard hi
      rw [← h4.enqueued]
      exact List.mem_filterMap.2 ⟨i, hi, SItem.requested_of_enqueues hv hmi⟩
  have hP : PoliteServer gr T := by
    refine ⟨fun hd q hm => hu.continuation q (hreq hd _ hm), ?_⟩
    intro T1 i T2 hd tag body hT12 hmi hb
    have hS : serverItems T = serverItems T1 ++ i :: serverItems T2 := by rw [hT12, serverItems_append]; rfl
    obtain ⟨v, hv⟩ := hl.server_guard (i := i) (by rw [hS]; simp)
    rw [hS] at h4
    obtain ⟨S1, j, S2, k1, k2, k3⟩ := h4.split (SItem.requested_of_enqueues hv hmi)
    obtain ⟨c, hc, hct⟩ := hu.bad S1 j S2 tag body k1 k2 hb
    refine ⟨c, ?_, hct⟩
    obtain ⟨e, he, hec⟩ := List.mem_filterMap.1 hc
    have he' : e = .commandReceived c := by cases e <;> cases hec; rfl
    subst he'
    obtain ⟨u, hu1, hu2⟩ := k3 _ (StreamNet.server_returned h k1 _ he)
    refine List.mem_filterMap.2 ⟨u, hu1, ?_⟩
    obtain ⟨v', hv'⟩ := hl.server_guard (i := u) (by rw [hS]; simp [hu1])
    cases u with
    | sent e =>
      cases hu2
      obtain ⟨-, m, -, hm⟩ := hv'
      cases m with
      | greeting g => cases hm
      | response hd r => cases hd <;> cases hm
    | received w e => cases hu2; rfl
    | _ => cases hu2
  refine ⟨hE, hP, ?_⟩
  refine Net.run_roundTrip hL hO hmax hT hE hP hu.greeting (fun hd r hm => hu.responses r (hreq hd r hm) _) ?_
    (fun x hx => hu.rejects _ (hen x hx) .sync)
  refine hu.accepts .sync _ ?_
  rw [acceptReply_eq hO.usable]
  exact List.mem_singleton.2 rfl

/-- The calls of a run on streams. -/
theorem StreamNet.calls (hL : L.Lawful) (hO : ServerOptions.Built L os) (hh : Handshaken paired tc ts)
    (h : (StreamNet.new tc ts gc oc gs os gr).run L as = some (sn, G)) (hr : .client .refused ∉ G ∧ .server .refused ∉ G) :
    ∃ n T, (Net.new gc oc gs os gr).run L (G.flatMap StreamNetItem.calls) = .ok (n, T) := by
  obtain ⟨n, T, h1, -⟩ := StreamNet.Tracks.run (ops := []) hL hO rfl (StreamNet.new_tracks hh gc gs oc os gr) h hr
  exact ⟨n, T, h1⟩

end ImapFlow
