import Verif.Proofs.StreamRest
import Verif.Proofs.RestDelivered
import Verif.Props.C51
import Verif.Props.C62

/-!
# C63: streams whose users only call `next` come to rest, and then everything was delivered

C54 for the users of two streams (`Spec/StreamNet.lean`), with or without TLS.  `StreamNet.Moves` is a step of the system
while both users do nothing but call `next` again and again: a call of `next`, the arrival of bytes that are on the way, or
the acceptance of bytes by a socket, in any portions and in any order.  No fairness is assumed: the claim holds for every
order of these steps.  Rustls may refuse to take more input (C49), which ends a stream, and this is the only exception.
-/

namespace ImapFlow

variable {K : Type} {paired : K → K → Prop} {L : Lib} {tc ts : Option (Tls K)} {gc gs : HandleGenerator}
  {oc : ClientOptions} {os : ServerOptions} {gr : Greeting} {as : List StreamNetAct} {sn sn' : StreamNet K}
  {G G' : List StreamNetItem} {n : Net} {T : List NItem}

/-- As long as not both users wait in `next` while nothing is on the way, the system can move. -/
theorem C63_progress (hL : L.Lawful) (hO : ServerOptions.Built L os)
    (hh : Handshaken paired tc ts) (h : (StreamNet.new tc ts gc oc gs os gr).run L as = some (sn, G))
    (hr : .client .refused ∉ G ∧ .server .refused ∉ G) (hw : ¬ sn.Waiting) : ∃ sn' G', sn.Moves L sn' G' := by
  obtain ⟨n, T, h1, h2, -⟩ := StreamNet.Tracks.run (ops := []) hL hO rfl (StreamNet.new_tracks hh gc gs oc os gr) h hr
  exact h2.possible (StreamNet.run_pending h ⟨by simp [FullStream.Pending, StreamNet.new], by simp [FullStream.Pending, StreamNet.new]⟩) hw

/-- Whatever the users did before, the system does not move forever: infinitely many steps are only possible after
rustls refused to take input. -/
theorem C63_rest (hL : L.Lawful) (hO : ServerOptions.Built L os) (hmax : 0 < os.maxCommandSize)
    (hh : Handshaken paired tc ts) (h : (StreamNet.new tc ts gc oc gs os gr).run L as = some (sn, G))
    (hr : .client .refused ∉ G ∧ .server .refused ∉ G) {f : Nat → StreamNet K} {g : Nat → List StreamNetItem}
    (h0 : f 0 = sn) (hm : ∀ i, (f i).Moves L (f (i + 1)) (g i)) :
    ∃ i, .client .refused ∈ g i ∨ .server .refused ∈ g i := by
  obtain ⟨n, T, h1, h2, -⟩ := StreamNet.Tracks.run (ops := []) hL hO rfl (StreamNet.new_tracks hh gc gs oc os gr) h hr
  refine Classical.byContradiction fun hn => ?_
  refine StreamNet.Tracks.rest hL hO hmax h1 (f := f) (g := g) (h0 ▸ h2) hm fun i => ⟨fun hx => hn ⟨i, .inl hx⟩, fun hx => hn ⟨i, .inr hx⟩⟩

/-- Hence a state in which both users wait in `next` while nothing is on the way can always be reached, unless rustls
refuses to take input. -/
theorem C63_settles (hL : L.Lawful) (hO : ServerOptions.Built L os) (hmax : 0 < os.maxCommandSize)
    (hh : Handshaken paired tc ts) (h : (StreamNet.new tc ts gc oc gs os gr).run L as = some (sn, G))
    (hr : .client .refused ∉ G ∧ .server .refused ∉ G) :
    ∃ sn' G', sn.Unattended L sn' G' ∧ (sn'.Waiting ∨ .client .refused ∈ G' ∨ .server .refused ∈ G') := by
  refine Classical.byContradiction fun hn => ?_
  have hn' : ∀ sn' G', sn.Unattended L sn' G' → ¬ sn'.Waiting ∧ .client .refused ∉ G' ∧ .server .refused ∉ G' :=
    fun sn' G' hu => ⟨fun hx => hn ⟨sn', G', hu, .inl hx⟩, fun hx => hn ⟨sn', G', hu, .inr (.inl hx)⟩,
      fun hx => hn ⟨sn', G', hu, .inr (.inr hx)⟩⟩
  have step : ∀ p : { p : StreamNet K × List StreamNetItem // sn.Unattended L p.1 p.2 },
      ∃ q : { p : StreamNet K × List StreamNetItem // sn.Unattended L p.1 p.2 }, ∃ G1, p.1.1.Moves L q.1.1 G1 ∧ q.1.2 = p.1.2 ++ G1 := by
    rintro ⟨⟨s1, G1⟩, hu⟩
    obtain ⟨as', h1, -⟩ := hu.run h
    obtain ⟨w1, w2, w3⟩ := hn' _ _ hu
    obtain ⟨s2, G2, hm⟩ := C63_progress hL hO hh h1 ⟨by simp [hr.1, w2], by simp [hr.2, w3]⟩ w1
    exact ⟨⟨(s2, G1 ++ G2), hu.snoc hm⟩, G2, hm, rfl⟩
  let F : Nat → { p : StreamNet K × List StreamNetItem // sn.Unattended L p.1 p.2 } :=
    fun i => Nat.rec ⟨(sn, []), .nil⟩ (fun _ p => Classical.choose (step p)) i
  have hF : ∀ i, ∃ G1, (F i).1.1.Moves L (F (i + 1)).1.1 G1 ∧ (F (i + 1)).1.2 = (F i).1.2 ++ G1 :=
    fun i => Classical.choose_spec (step (F i))
  obtain ⟨i, hi⟩ := C63_rest hL hO hmax hh h hr (f := fun i => (F i).1.1) (g := fun i => Classical.choose (hF i)) rfl
    (fun i => (Classical.choose_spec (hF i)).1)
  have e := (Classical.choose_spec (hF i)).2
  obtain ⟨-, w2, w3⟩ := hn' _ _ (F (i + 1)).2
  rw [e] at w2 w3
  rcases hi with hi | hi
  · exact w2 (List.mem_append_right _ hi)
  · exact w3 (List.mem_append_right _ hi)

/-- At rest, everything that was said was heard, all answers were understood, and both sides agree whose turn it is. -/
theorem C63_delivered (hL : L.Lawful) (hO : ServerOptions.Built L os) (hmax : 0 < os.maxCommandSize)
    (hh : Handshaken paired tc ts) (h : (StreamNet.new tc ts gc oc gs os gr).run L as = some (sn, G))
    (hr : .client .refused ∉ G ∧ .server .refused ∉ G)
    (hT : (Net.new gc oc gs os gr).run L (G.flatMap StreamNetItem.calls) = .ok (n, T))
    (hC : ClearServer L oc os gr (serverItems T)) (hF : FairClient L os (clientItems T))
    (hP : OrderlyServer (serverItems T)) (hu : sn.Unattended L sn' G')
    (hr' : .client .refused ∉ G' ∧ .server .refused ∉ G') (hw : sn'.Waiting) :
    ∃ n' U, n.run L (G'.flatMap StreamNetItem.calls) = .ok (n', U) ∧
      (events (atServer (G ++ G'))).filterMap ServerEvent.heard? = (ClientView.of (clientItems (T ++ U))).said ∧
      (events (atClient (G ++ G'))).filterMap ClientEvent.answer? = serverAnswers (serverItems (T ++ U)) ∧
      Turn (ClientView.of (clientItems (T ++ U))) (serverPhase (serverItems (T ++ U)))
        (serverDialogue (serverItems (T ++ U))) := by
  obtain ⟨as', hrun, hint⟩ := hu.run h
  obtain ⟨n', U, hU⟩ := (Net.run_linked hT).run_ok hL hO (G'.flatMap StreamNetItem.calls)
  obtain ⟨h1, -, h2, h3, h4⟩ := Net.Linked.unattended hL hO hmax hT hC hF hP hint hU
  rw [← List.flatMap_append] at h1
  exact ⟨n', U, hU, C62_turn hL hO hmax hh hrun ⟨by simp [hr.1, hr'.1], by simp [hr.2, hr'.2]⟩ h1 h2 h3 h4 hw⟩

/-- If all commands are regular, then at rest each of them was returned to the user of the server, in order, and
reported as sent to the user of the client. -/
theorem C63_commands (hL : L.Lawful) (hO : ServerOptions.Built L os) (hmax : 0 < os.maxCommandSize)
    (hh : Handshaken paired tc ts) (h : (StreamNet.new tc ts gc oc gs os gr).run L as = some (sn, G))
    (hr : .client .refused ∉ G ∧ .server .refused ∉ G)
    (hT : (Net.new gc oc gs os gr).run L (G.flatMap StreamNetItem.calls) = .ok (n, T))
    (hC : ClearServer L oc os gr (serverItems T)) (hF : FairClient L os (clientItems T))
    (hP : OrderlyServer (serverItems T)) (hreg : ∀ c ∈ (atClient G).filterMap StreamItem.enqueued?, c.isRegular = true)
    (hu : sn.Unattended L sn' G') (hr' : .client .refused ∉ G' ∧ .server .refused ∉ G') (hw : sn'.Waiting) :
    (events (atServer (G ++ G'))).filterMap ServerEvent.received? = (atClient G).filterMap StreamItem.enqueued? ∧
    (events (atClient (G ++ G'))).filterMap ClientEvent.sentCommand? = (atClient G).filterMap StreamItem.enqueued? := by
  obtain ⟨-, k3, -, -⟩ := StreamNet.traced hL hO hh h hr hT
  obtain ⟨as', hrun, hint⟩ := hu.run h
  obtain ⟨n', U, hU⟩ := (Net.run_linked hT).run_ok hL hO (G'.flatMap StreamNetItem.calls)
  obtain ⟨h1, h0, h2, h3, h4⟩ := Net.Linked.unattended hL hO hmax hT hC hF hP hint hU
  rw [← List.flatMap_append] at h1
  have hrr : StreamNetItem.client .refused ∉ G ++ G' ∧ StreamNetItem.server .refused ∉ G ++ G' :=
    ⟨by simp [hr.1, hr'.1], by simp [hr.2, hr'.2]⟩
  obtain ⟨-, r3, r4, -⟩ := StreamNet.traced hL hO hh hrun hrr h1
  obtain ⟨ec, es⟩ := StreamNet.run_events hrun
  have hl := Net.run_linked h1
  obtain ⟨D, fl, ht⟩ := hl.together hL hO h2 hmax h3 h4 (P := T ++ U) (Q := []) (by simp)
  obtain ⟨cops, hct⟩ := hl.client
  obtain ⟨⟨A, hA⟩, ⟨B, hB⟩, c1, c2⟩ := StreamNet.waiting_starved hL hO hh hrun hrr h1 h2 hw
  have hen := k3.enqueued
  have hgood := ht.good hL hct h3 (by
    rw [h0]
    intro x hx
    exact hreg _ (hen ▸ List.mem_map_of_mem hx))
  obtain ⟨d1, d2⟩ := hl.done hL hO h2 hA hB c1 c2 hmax hgood
  constructor
  · rw [hl.events_commands r4 es, d1, h0, hen]
  · rw [r3.events_sent ec, d2, h0, ← hen]
    simp [ClientEvent.sentCommand?, Function.comp_def]

/-- With TLS: two commands were enqueued and nothing was sent yet.  The system moves by itself to a state in which both
users wait, and there both commands were delivered. -/
example : ∃ n G m T, StreamNetSample.start.run Toy.lib StreamDialogueSample.asked = some (n, G) ∧
    (.client .refused ∉ G ∧ .server .refused ∉ G) ∧ ¬ n.Waiting ∧
    NetSample.start.run Toy.lib (G.flatMap StreamNetItem.calls) = .ok (m, T) ∧
    ClearServer Toy.lib .default ServerSample.options ServerSample.greeting (serverItems T) ∧
    FairClient Toy.lib ServerSample.options (clientItems T) ∧ OrderlyServer (serverItems T) ∧
    ∃ n' G', n.Unattended Toy.lib n' G' ∧ (.client .refused ∉ G' ∧ .server .refused ∉ G') ∧ n'.Waiting ∧
      (events (atServer (G ++ G'))).filterMap ServerEvent.received? = [NetSample.cmdA, NetSample.cmdC] := by
  obtain ⟨n, G, n', G', h, hs, hn, he, hu, r2, r3⟩ := StreamDialogueSample.comes_to_rest
  obtain ⟨h1, m, T, h2, h3, h4, h5, h6⟩ := hs.hypotheses
  refine ⟨n, G, m, T, h, h1, hn, h2, h4, h5, h6, n', G', hu, r3, r2, ?_⟩
  rw [(C63_commands Toy.lawful StreamNetSample.built (by decide) StreamNetSample.handshaken h h1 h2 h4 h5 h6
    (by rw [he]; intro c hc; simp only [List.mem_cons, List.not_mem_nil, or_false] at hc; rcases hc with rfl | rfl <;> rfl) hu r3 r2).1, he]

end ImapFlow
