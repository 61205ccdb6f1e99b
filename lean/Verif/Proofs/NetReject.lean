import Verif.Proofs.NetAnswers
import Verif.Props.C22
import Verif.Spec.StreamNet

/-!
# Client and server agree about rejected literals
-/

namespace ImapFlow

variable {L : Lib} {gc gs : HandleGenerator} {oc : ClientOptions} {os : ServerOptions} {gr : Greeting}
  {n : Net} {T : List NItem}

/-! ## Lists -/

theorem flatMap_sublist {α β : Type} (f : α → List β) {l l' : List α} (h : l.Sublist l') :
    (l.flatMap f).Sublist (l'.flatMap f) := by
  induction h with
  | slnil => exact List.Sublist.refl _
  | cons a _ ih =>
    rw [List.flatMap_cons]
    exact ih.trans (List.sublist_append_right ..)
  | cons_cons a _ ih =>
    rw [List.flatMap_cons, List.flatMap_cons]
    exact (List.Sublist.refl _).append ih

theorem take_flatMap_length' {α β : Type} (f : α → List β) {l : List α} {j k : Nat} (h : j ≤ k) :
    ((l.take j).flatMap f).length ≤ ((l.take k).flatMap f).length := by
  have h1 : l.take j = (l.take k).take j := by rw [List.take_take, Nat.min_eq_left h]
  exact (flatMap_sublist f (h1 ▸ (List.take_sublist j (l.take k)))).length_le

theorem take_succ_flatMap {α β : Type} (f : α → List β) {l : List α} {e : Nat} {x : α} (h : l[e]? = some x) :
    (l.take (e + 1)).flatMap f = (l.take e).flatMap f ++ f x := by
  rw [List.take_add_one, h, List.flatMap_append]
  simp

/-- The element of a concatenation at a given position. -/
theorem flatMap_getElem? {α β : Type} (f : α → List β) {l : List α} {e k r : Nat} {x : α} (h : l[e]? = some x) (hk : e < k)
    (hr : r < (f x).length) : ((l.take k).flatMap f)[((l.take e).flatMap f).length + r]? = (f x)[r]? := by
  have h1 : l.take (e + 1) = (l.take k).take (e + 1) := by rw [List.take_take, Nat.min_eq_left (by omega)]
  have h2 : (l.take k).flatMap f = (l.take (e + 1)).flatMap f ++ ((l.take k).drop (e + 1)).flatMap f := by
    rw [h1, ← List.flatMap_append, List.take_append_drop]
  rw [h2, take_succ_flatMap f h, List.append_assoc, List.getElem?_append_right (by omega), Nat.add_sub_cancel_left,
    List.getElem?_append_left hr]

/-- A synchronizing literal is determined by the number of those before it. -/
theorem syncs_unique {fs pre pre' post post' : List Fragment} {d d' : Bytes}
    (h : fs = pre ++ .literal d .sync :: post) (h' : fs = pre' ++ .literal d' .sync :: post')
    (hs : syncs pre = syncs pre') : pre = pre' := by
  rcases List.append_eq_append_iff.mp (h.symm.trans h') with ⟨a, h1, h2⟩ | ⟨a, h1, h2⟩
  · cases a with
    | nil => simpa using h1.symm
    | cons x a =>
      simp only [List.cons_append, List.cons.injEq] at h2
      rw [h1, ← h2.1, syncs_append] at hs
      simp [syncs] at hs
  · cases a with
    | nil => simpa using h1
    | cons x a =>
      simp only [List.cons_append, List.cons.injEq] at h2
      rw [h1, ← h2.1, syncs_append] at hs
      simp [syncs] at hs

/-! ## Causality -/

/-- The client decodes only messages that were enqueued before. -/
theorem Net.Linked.decoded_le (hL : L.Lawful) (h : Net.Linked L gc oc gs os gr n T)
    (hrt : ∀ m ∈ serverMessages gr (serverItems T), m.RoundTrip L oc) {P Q : List NItem} (hT : T = P ++ Q) :
    (clientDecoded L (clientItems P)).length ≤ (serverMessages gr (serverItems P)).length := by
  obtain ⟨cops, hct⟩ := h.client
  obtain ⟨sops, hst⟩ := h.server
  have hCs : clientItems T = clientItems P ++ clientItems Q := by rw [hT, clientItems_append]
  have hSs : serverItems T = serverItems P ++ serverItems Q := by rw [hT, serverItems_append]
  obtain ⟨k, hk, htk, hdec, -, -⟩ := h.reads hL hrt hCs
  have hle := h.output.1
  rw [hdec, List.length_map, List.length_take, Nat.min_eq_left (by omega)]
  rw [hCs] at hct
  have hst' := hst
  rw [hSs] at hst'
  obtain ⟨c1, hcinv⟩ := Client.trace_prefix_inv hL hct
  obtain ⟨s1, hsinv⟩ := Server.prefix_inv hst'
  generalize hj : (serverMessages gr (serverItems P)).length = j
  rcases Nat.lt_or_ge j k with hlt | hge
  · exfalso
    have hms : serverMessages gr (serverItems T) = serverMessages gr (serverItems P) ++ (serverItems Q).flatMap SItem.enqueues := by
      rw [hSs, serverMessages_append]
    have hm : (serverMessages gr (serverItems T)).take j = serverMessages gr (serverItems P) := by
      rw [hms, ← hj, List.take_left]
    have h1 : (clientTaken (clientItems P)).length ≤ (clientGiven (clientItems P)).length := by
      rw [Client.given_eq hcinv, List.length_append]; omega
    have h2 := (h.causal P Q hT).1.length_le
    have h3 : (serverOutput (serverItems P)).length ≤
        (((serverMessages gr (serverItems T)).take j).flatMap (ServerMessage.bytes L)).length := by
      obtain ⟨-, ⟨-, -, g3, -⟩, -⟩ := hsinv
      rw [ServerView.of_messages] at g3
      rw [← ((ServerView.of_fields gr (serverItems P)).2.2.2.1), g3, ← List.flatMap_def, hm]
      have := take_flatMap_length (ServerMessage.bytes L) (l := serverMessages gr (serverItems P))
        (j := (ServerView.of gr (serverItems P)).outputs.length)
        (k := (ServerView.of gr (serverItems P)).outputs.length + (serverMessages gr (serverItems P)).length) (by omega)
      rw [List.take_of_length_le (i := _ + _) (by omega)] at this
      exact this
    have hlt' : j < (serverMessages gr (serverItems T)).length := by omega
    obtain ⟨m, hjm⟩ : ∃ m, (serverMessages gr (serverItems T))[j]? = some m := ⟨_, List.getElem?_eq_getElem hlt'⟩
    have h4 := take_flatMap_length (ServerMessage.bytes L) (l := serverMessages gr (serverItems T)) (Nat.succ_le_of_lt hlt)
    rw [← htk, Nat.succ_eq_add_one, take_succ_flatMap _ hjm, List.length_append] at h4
    have h5 : ServerMessage.bytes L m ≠ [] := by
      have := hrt _ (List.mem_of_getElem? hjm)
      cases m with
      | greeting g => exact (IsMessage.complete this).ne_nil
      | response hd r => exact (IsMessage.complete this).ne_nil
    have h6 := List.length_pos_iff.mpr h5
    omega
  · exact hge

/-! ## The server -/

/-- The bytes of the command that reach the server. -/
def transmittedBytes (L : Lib) (os : ServerOptions) (x : RawHandle × Command) : Bytes := wire (x.2.transmitted L os)

/-- The server has read `k` commands and accepted `m` synchronizing literals of the next one. -/
structure ServerAt (L : Lib) (os : ServerOptions) (gr : Greeting) (E : List (RawHandle × Command)) (S : List SItem)
    (k m : Nat) : Prop where
  le : k ≤ E.length
  reads : S.filter SItem.reads = (E.take k).map fun x => x.2.serverRead L os
  phase : serverPhase S = .command
  taken : serverTaken S = (E.take k).flatMap (transmittedBytes L os)
  given : serverGiven S = serverTaken S ++ serverUnread S
  own : (serverMessages gr S).filter ServerMessage.own =
    (E.take k).flatMap (fun x => x.2.answers L os) ++ List.replicate m (acceptMessage os)
  literals : 0 < m → serverUnread S ≠ [] ∧ ∃ x, E[k]? = some x ∧ m ≤ syncs (x.2.transmitted L os)

theorem Server.literals_at {g : HandleGenerator} {ops : List ServerOp} {s : Server} {S S' : List SItem}
    (h : (Server.new g os gr).trace L ops = .ok (s, S ++ S')) (hp : serverPhase S = .command) :
    (serverLiterals S).Pairwise (fun a b => a.length < b.length) ∧
    ∀ q ∈ serverLiterals S, q <+: serverUnread S ∧ ∃ k, Announces (commandFraming L os) q k := by
  obtain ⟨s1, hinv⟩ := Server.prefix_inv h
  have hl := Server.of_literals h
  have hgv := Server.given_eq hinv
  obtain ⟨-, -, hr⟩ := hinv
  have hph := ServerView.of_phase gr S
  rw [hp] at hph
  have hf := ServerView.of_fields gr S
  cases hrs : s1.receiveState with
  | command st =>
    rw [hrs] at hr
    obtain ⟨-, hx, hlo⟩ := hr
    rw [hl] at hlo
    have hb : serverUnread S = st.readBuffer := by
      have h1 : (ServerView.of gr S).given = (ServerView.of gr S).consumed ++ st.readBuffer := hx.2.2
      rw [hf.1, hf.2.1, hgv, List.append_cancel_left_eq] at h1
      exact h1
    refine ⟨hlo.1, fun q hq => ?_⟩
    obtain ⟨a1, -, a2⟩ := hlo.2.1 q hq
    rw [hb]
    exact ⟨a1, a2⟩
  | dummy => rw [hrs] at hr; exact hr.elim
  | authenticateData st =>
    rw [hrs] at hr
    have := hph.symm.trans hr.1
    cases this
  | idleAccept st =>
    rw [hrs] at hr
    have := hph.symm.trans hr.1
    cases this
  | idleDone st =>
    rw [hrs] at hr
    have := hph.symm.trans hr.1
    cases this

theorem MixedCommands.serverAt (hO : ServerOptions.Built L os) (hmax : 0 < os.maxCommandSize)
    {E : List (RawHandle × Command)} (hE : MixedCommands L os E)
    {g : HandleGenerator} {ops : List ServerOp} {s : Server} {S S' : List SItem}
    (h : (Server.new g os gr).trace L ops = .ok (s, S ++ S'))
    (hg : serverGiven S <+: E.flatMap (transmittedBytes L os)) : ∃ k m, ServerAt L os gr E S k m := by
  have hus : ∀ u ∈ E.map (fun x => x.2.serverRead L os), PlainRead L os u := by
    intro u hu
    obtain ⟨x, hx, rfl⟩ := List.mem_map.mp hu
    exact hE.plainRead x hx
  have htake : ∀ E' : List (RawHandle × Command), (∀ x ∈ E', x ∈ E) →
      (E'.map fun x => x.2.serverRead L os).flatMap SItem.taken = E'.flatMap (transmittedBytes L os) := by
    intro E' hE'
    rw [List.flatMap_map]
    induction E' with
    | nil => rfl
    | cons x E' ih =>
      rw [List.flatMap_cons, List.flatMap_cons, ih fun y hy => hE' y (by simp [hy]),
        Command.serverRead_taken (hE.sync x (hE' x (by simp)))]
      rfl
  have key : ∀ A B, S = A ++ B → ∃ k, k ≤ (E.map fun x => x.2.serverRead L os).length ∧
      A.filter SItem.reads = (E.map fun x => x.2.serverRead L os).take k ∧ serverPhase A = .command := by
    intro A B hAB
    rw [hAB, List.append_assoc] at h
    refine Server.reads h hmax hus ?_
    rw [htake E fun _ hx => hx]
    refine List.IsPrefix.trans ?_ hg
    rw [hAB, serverGiven_append]
    exact List.prefix_append ..
  obtain ⟨k, h1, h2, h3⟩ := key S [] (by simp)
  rw [List.length_map] at h1
  rw [← List.map_take] at h2
  have hown := Server.own_messages hO h (cs := (E.take k).map (·.2))
    (by
      intro c hc
      obtain ⟨x, hx, rfl⟩ := List.mem_map.mp hc
      have := List.mem_of_mem_take hx
      exact ⟨hE.roundTrip x this, hE.sync x this⟩)
    (by rw [h2, List.map_map]; rfl)
    (fun A B hAB => (key A B hAB).elim fun _ h => h.2.2)
  rw [List.flatMap_map] at hown
  obtain ⟨s1, hinv⟩ := Server.prefix_inv h
  have hgv := Server.given_eq hinv
  have htk : serverTaken S = (E.take k).flatMap (transmittedBytes L os) := by
    rw [serverTaken_filter, h2, htake _ fun x hx => List.mem_of_mem_take hx]
  obtain ⟨hl1, hl2⟩ := Server.literals_at h h3
  have hun : serverUnread S <+: (E.drop k).flatMap (transmittedBytes L os) := by
    have hg' := hg
    rw [hgv, htk, ← List.take_append_drop k E, List.flatMap_append, List.take_append_drop] at hg'
    exact (List.prefix_append_right_inj _).mp hg'
  have hpos : ∀ q ∈ serverLiterals S, 0 < q.length := by
    intro q hq
    obtain ⟨-, j, p, l, e, rfl, -, hl, -⟩ := hl2 q hq
    have := List.length_pos_iff.mpr hl.ne_nil
    rw [List.length_append]
    omega
  cases hd : E.drop k with
  | nil =>
    have hnil : serverLiterals S = [] := by
      rw [List.eq_nil_iff_forall_not_mem]
      intro q hq
      have h4 := (hl2 q hq).1.trans hun
      rw [hd] at h4
      have h5 := h4.length_le
      have := hpos q hq
      rw [List.flatMap_nil, List.length_nil] at h5
      omega
    rw [hnil] at hown
    exact ⟨k, 0, h1, h2, h3, htk, hgv, hown, fun h => absurd h (by omega)⟩
  | cons x R =>
    have hx : E[k]? = some x := by
      have := congrArg (fun l => l[0]?) hd
      simpa [List.getElem?_drop] using this
    have hmem := List.mem_of_getElem? hx
    rw [hd, List.flatMap_cons] at hun
    have hsub : (serverLiterals S).Sublist (announcements [] (x.2.transmitted L os)) := by
      refine sorted_sublist hl1 (CommandEncodes.sorted (hE.roundTrip x hmem)).1 fun q hq => ?_
      obtain ⟨j, hj⟩ := (hl2 q hq).2
      exact CommandEncodes.announced_mem (hE.roundTrip x hmem) .nil (X := transmittedBytes L os x ++ R.flatMap (transmittedBytes L os))
        (by rw [List.nil_append]; exact List.prefix_append ..) ((hl2 q hq).1.trans hun) hj (hpos q hq)
    have hans : (announcements [] (x.2.transmitted L os)).flatMap (answerOf L os) =
        List.replicate (syncs (x.2.transmitted L os)) (acceptMessage os) :=
      CommandEncodes.answers (os := os) (hE.roundTrip x hmem)
    have hsub' := flatMap_sublist (answerOf L os) hsub
    rw [hans] at hsub'
    obtain ⟨m, hm1, hm2⟩ := List.sublist_replicate_iff.mp hsub'
    refine ⟨k, m, h1, h2, h3, htk, hgv, ?_, fun hm => ⟨?_, x, hx, hm1⟩⟩
    · rw [hown, hm2]
    · intro hnil
      cases hls : serverLiterals S with
      | nil =>
        rw [hls] at hm2
        have := congrArg List.length hm2
        simp at this
        omega
      | cons q ls =>
        have h4 := (hl2 q (by rw [hls]; simp)).1.length_le
        have := hpos q (by rw [hls]; simp)
        rw [hnil, List.length_nil] at h4
        omega

/-! ## The client -/

/-- What the client has done with the commands. -/
structure ClientAt (L : Lib) (os : ServerOptions) (E : List (RawHandle × Command)) (v : ClientView) : Prop where
  ended : ∀ (n : Nat) en, v.ended[n]? = some en →
    ∃ x, E[n]? = some x ∧ ReportedAs L os x en.event ∧ en.sent = transmittedBytes L os x
  current : (v.sent = [] ∧ v.released = 0) ∨ ∃ x, E[v.ended.length]? = some x ∧
    v.sent <+: transmittedBytes L os x ∧ v.released ≤ syncs (x.2.transmitted L os)

theorem ClientAt.output {E : List (RawHandle × Command)} {A : List CItem} (h : ClientAt L os E (ClientView.of A)) :
    clientOutput A = (E.take (ClientView.of A).ended.length).flatMap (transmittedBytes L os) ++ (ClientView.of A).sent ∧
    clientOutput A <+: E.flatMap (transmittedBytes L os) := by
  have h1 : (ClientView.of A).ended.map ClientEnded.sent =
      (E.take (ClientView.of A).ended.length).map (transmittedBytes L os) :=
    map_eq_take fun n a ha => (h.ended n a ha).imp fun x hx => ⟨hx.1, hx.2.2⟩
  have h2 := (ClientView.of_fields A).2.2.2.2
  rw [List.flatMap_def, h1, ← List.flatMap_def] at h2
  refine ⟨h2.symm, ?_⟩
  rw [← h2]
  rcases h.current with ⟨h3, -⟩ | ⟨x, h3, h4, -⟩
  · rw [h3, List.append_nil]
    conv => rhs; rw [← List.take_append_drop (ClientView.of A).ended.length E, List.flatMap_append]
    exact List.prefix_append ..
  · conv => rhs; rw [← List.take_append_drop ((ClientView.of A).ended.length + 1) E, List.flatMap_append]
    rw [take_succ_flatMap _ h3, List.append_assoc]
    exact (List.prefix_append_right_inj _).mpr (h4.trans (List.prefix_append ..))

theorem ClientView.of_remaining_get {A A' : List CItem} {x : RawHandle × Command} {q : List (RawHandle × Command)}
    (h : (ClientView.of A).remaining = x :: q) : (clientEnqueued (A ++ A'))[(ClientView.of A).ended.length]? = some x := by
  unfold ClientView.remaining at h
  rw [(ClientView.of_fields A).2.2.1] at h
  have h1 := congrArg (fun l => l[0]?) h
  simp only [List.getElem?_drop, Nat.add_zero, List.getElem?_cons_zero] at h1
  rw [clientEnqueued_append, List.getElem?_append_left]
  · exact h1
  · exact (List.getElem?_eq_some_iff.mp h1).1

theorem ClientAt.congr {E : List (RawHandle × Command)} {v v' : ClientView} (h : ClientAt L os E v)
    (h1 : v'.ended = v.ended) (h2 : v'.sent = v.sent) (h3 : v'.released = v.released) : ClientAt L os E v' := by
  obtain ⟨a, b⟩ := h
  exact ⟨by rw [h1]; exact a, by rw [h1, h2, h3]; exact b⟩

theorem ClientAt.terminate {E : List (RawHandle × Command)} {v : ClientView} (h : ClientAt L os E v) {x : RawHandle × Command}
    {e : ClientEvent} (hx : E[v.ended.length]? = some x) (h1 : ReportedAs L os x e) (h2 : v.sent = transmittedBytes L os x) :
    ClientAt L os E (v.terminate e) := by
  refine ⟨?_, .inl ⟨rfl, rfl⟩⟩
  intro n en hn
  have hn : (v.ended ++ [{ event := e, sent := v.sent, datas := v.datas }])[n]? = some en := hn
  rcases Nat.lt_or_ge n v.ended.length with hlt | hge
  · rw [List.getElem?_append_left hlt] at hn
    exact h.ended n en hn
  · rw [List.getElem?_append_right hge] at hn
    obtain ⟨hlt, hen⟩ := List.getElem?_eq_some_iff.mp hn
    have : n = v.ended.length := by
      simp only [List.length_cons, List.length_nil] at hlt
      omega
    subst this
    simp only [Nat.sub_self, List.getElem_cons_zero] at hen
    subst hen
    exact ⟨x, hx, h1, h2⟩

theorem ClientAt.sendOutput {E : List (RawHandle × Command)} (hE : MixedCommands L os E) {v : ClientView} (h : ClientAt L os E v)
    {b : Bytes} (hg : OutputGuard L v b) (hrem : ∀ x q, v.remaining = x :: q → E[v.ended.length]? = some x) :
    ClientAt L os E (v.observe (.output b)) := by
  obtain ⟨hb, hd, cmd, q, h1, h2⟩ := hg
  have hx := hrem _ _ h1
  have hmem := List.mem_of_getElem? hx
  obtain ⟨o, ho⟩ := Command.body_of_regular (hE.regular _ hmem)
  simp only at ho
  rcases h2 with ⟨-, -, pre, post, g1, g2, g3, -⟩ | ⟨g, -⟩ | ⟨g, -⟩
  · have hrel : v.released ≤ syncs (cmd.transmitted L os) := by
      rcases h.current with ⟨-, h0⟩ | ⟨y, hy, -, h0⟩
      · omega
      · rw [hx] at hy
        cases hy
        exact h0
    refine ⟨h.ended, .inr ⟨_, hx, ?_, hrel⟩⟩
    show v.sent ++ b <+: wire (cmd.transmitted L os)
    rw [g2]
    have hpre : pre <+: cmd.transmitted L os := by
      rcases Command.transmitted_cases (hE.sync _ hmem) with ⟨-, h4⟩ | ⟨-, d, post', h4, -⟩
      · simp only at h4
        rw [h4, g1]
        exact List.prefix_append ..
      · simp only at h4
        rcases List.append_eq_append_iff.mp (h4.symm.trans g1) with ⟨a, e1, e2⟩ | ⟨a, e1, -⟩
        · cases a with
          | nil => rw [List.append_nil] at e1; rw [e1]; exact List.prefix_refl _
          | cons f a =>
            simp only [List.cons_append, List.cons.injEq] at e2
            rw [e1, ← e2.1, syncs_append] at g3
            simp only [syncs] at g3
            omega
        · rw [e1]
          exact List.prefix_append ..
    obtain ⟨r, hr⟩ := hpre
    rw [← hr, wire_append]
    exact List.prefix_append ..
  · simp [Command.isAuthenticate, ho] at g
  · simp [Command.isIdle, ho] at g

/-- A synchronizing literal that is too long comes after the transmitted part. -/
theorem Command.syncs_transmitted {c : Command}
    (hs : ∀ d, .literal d .nonSync ∈ L.encodeCommand c → d.length ≤ os.maxLiteralSize)
    (h : syncs (L.encodeCommand c) ≤ syncs (c.transmitted L os)) :
    c.accepted L os = true ∧ c.transmitted L os = L.encodeCommand c := by
  rcases c.transmitted_cases hs with h1 | ⟨-, d, post, h4, -⟩
  · exact h1
  · rw [h4, syncs_append] at h
    simp only [syncs] at h
    omega

theorem Command.answers_accepted {c : Command} (h : c.accepted L os = true) :
    (c.answers L os).length = syncs (c.transmitted L os) := by
  have : (c.serverRead L os).enqueues = [] := by
    unfold Command.serverRead
    rw [if_pos h]
    rfl
  rw [Command.answers, this, List.append_nil, List.length_replicate]

theorem Command.answers_rejected (hO : ServerOptions.Built L os) {c : Command} (h : c.accepted L os = false) :
    ∃ text, os.literalRejectText = .ok text ∧ c.answers L os =
      List.replicate (syncs (c.transmitted L os)) (acceptMessage os) ++
        [.response none (.status (.tagged c.tag { kind := .bad, code := none, text := text }))] := by
  obtain ⟨text, h1, h2⟩ := rejectReply_eq hO.usable
  refine ⟨text, by simp [ServerOptions.literalRejectText, h1], ?_⟩
  have : (c.serverRead L os).enqueues = LiteralRejection c.tag text .sync := by
    unfold Command.serverRead
    rw [if_neg (by simp [h])]
    show rejectReply os c.tag .sync = _
    exact h2 ..
  rw [Command.answers, this]
  rfl

/-! ## The messages of the server -/

/-- The next message the client decodes. -/
theorem Net.Linked.next_message (hL : L.Lawful) (h : Net.Linked L gc oc gs os gr n T)
    (hrt : ∀ m ∈ serverMessages gr (serverItems T), m.RoundTrip L oc) {P Q : List NItem} {i : CItem} {r : Incoming}
    (hT : T = P ++ .client i :: Q) (hi : i.decoded L = [r]) :
    ∃ m, (serverMessages gr (serverItems P))[(clientDecoded L (clientItems P)).length]? = some m ∧
      (serverMessages gr (serverItems T))[(clientDecoded L (clientItems P)).length]? = some m ∧ m.content = r ∧
      (clientGreeted (clientItems P) ↔ 0 < (clientDecoded L (clientItems P)).length) := by
  have hT' : T = (P ++ [.client i]) ++ Q := by rw [hT]; simp
  have hle := h.decoded_le hL hrt hT'
  have hc : clientItems (P ++ [.client i]) = clientItems P ++ [i] := by rw [clientItems_append]; rfl
  have hs : serverItems (P ++ [.client i]) = serverItems P := by rw [serverItems_append]; exact List.append_nil _
  have hdec : clientDecoded L (clientItems P ++ [i]) = clientDecoded L (clientItems P) ++ [r] := by
    rw [clientDecoded_append]
    simp [clientDecoded, hi]
  rw [hc, hs, hdec, List.length_append] at hle
  have hlt : (clientDecoded L (clientItems P)).length < (serverMessages gr (serverItems P)).length := hle
  obtain ⟨m, hm⟩ : ∃ m, (serverMessages gr (serverItems P))[(clientDecoded L (clientItems P)).length]? = some m :=
    ⟨_, List.getElem?_eq_getElem hlt⟩
  have hm' : (serverMessages gr (serverItems T))[(clientDecoded L (clientItems P)).length]? = some m := by
    rw [hT, serverItems_append, serverMessages_append, List.getElem?_append_left hlt]
    exact hm
  obtain ⟨k1, hk1, -, hd1, -, hg1⟩ := h.reads hL hrt (T1 := clientItems P) (T2 := i :: clientItems Q) (by
    rw [hT, clientItems_append]; rfl)
  obtain ⟨k2, hk2, -, hd2, -, -⟩ := h.reads hL hrt (T1 := clientItems P ++ [i]) (T2 := clientItems Q) (by
    rw [hT, clientItems_append, List.append_assoc]; rfl)
  have hle := h.output.1
  have hl1 : (clientDecoded L (clientItems P)).length = k1 := by
    rw [hd1, List.length_map, List.length_take]; omega
  have hl2 : (clientDecoded L (clientItems P ++ [i])).length = k2 := by
    rw [hd2, List.length_map, List.length_take]; omega
  rw [hdec, List.length_append, hl1, List.length_singleton] at hl2
  refine ⟨m, hm, hm', ?_, by rw [hl1]; exact hg1⟩
  rw [hl1] at hm'
  rw [hd2, hd1, ← hl2, List.take_add_one, hm', List.map_append, List.append_cancel_left_eq] at hdec
  simpa using hdec

/-- Where a message that the server generated itself comes from. -/
theorem own_getElem? {l : List ServerMessage} {k : Nat} {m : ServerMessage} (h : l[k]? = some m) (hm : m.own = true) :
    (l.filter ServerMessage.own)[((l.take k).filter ServerMessage.own).length]? = some m := by
  obtain ⟨hlt, hk⟩ := List.getElem?_eq_some_iff.mp h
  have h1 : l = l.take k ++ m :: l.drop (k + 1) := by
    rw [← hk, List.getElem_cons_drop, List.take_append_drop]
  conv => lhs; arg 1; rw [h1, List.filter_append]
  rw [List.getElem?_append_right (Nat.le_refl _), Nat.sub_self, List.filter_cons, if_pos hm]
  rfl

/-- A message that the server generated itself reaches the client when it waits for it. -/
theorem ClientAt.answer (hO : ServerOptions.Built L os) {E : List (RawHandle × Command)} (hE : MixedCommands L os E)
    {A : List CItem} {S : List SItem} {k m : Nat}
    (hc : ClientAt L os E (ClientView.of A)) (hs : ServerAt L os gr E S k m) (hg : serverGiven S <+: clientOutput A)
    (hw : Waiting L (ClientView.of A))
    (hrem : ∀ x q, (ClientView.of A).remaining = x :: q → E[(ClientView.of A).ended.length]? = some x)
    {a : ServerMessage}
    (ha : ((serverMessages gr S).filter ServerMessage.own)[((E.take (ClientView.of A).ended.length).flatMap
      fun x => x.2.answers L os).length + (ClientView.of A).released]? = some a) :
    ∃ hd cmd q pre d post, (ClientView.of A).remaining = (hd, cmd) :: q ∧ (ClientView.of A).sent ≠ [] ∧
      L.encodeCommand cmd = pre ++ .literal d .sync :: post ∧ (ClientView.of A).sent = wire pre ∧
      (ClientView.of A).released = syncs pre ∧ cmd.isRegular = true ∧
      ((a = acceptMessage os ∧ (ClientView.of A).released < syncs (cmd.transmitted L os)) ∨
       (cmd.accepted L os = false ∧ pre = cmd.transmitted L os ∧ ∃ text, os.literalRejectText = .ok text ∧
        a = .response none (.status (.tagged cmd.tag { kind := .bad, code := none, text := text })))) := by
  obtain ⟨hout, -⟩ := hc.output
  have hlen := hg.length_le
  rw [hout, hs.given, hs.taken, List.length_append, List.length_append] at hlen
  rw [hs.own] at ha
  have hlt := (List.getElem?_eq_some_iff.mp ha).1
  rw [List.length_append, List.length_replicate] at hlt
  generalize he : (ClientView.of A).ended.length = e at *
  have hpos : e < k ∨ (e = k ∧ (ClientView.of A).released < m) := by
    rcases Nat.lt_trichotomy e k with h1 | h1 | h1
    · exact .inl h1
    · subst h1
      exact .inr ⟨rfl, by omega⟩
    · exfalso
      have h2 := take_flatMap_length' (fun x : RawHandle × Command => x.2.answers L os) (l := E) (Nat.succ_le_of_lt h1)
      rcases Nat.eq_zero_or_pos m with h0 | h0
      · have h3 := take_flatMap_length' (fun x : RawHandle × Command => x.2.answers L os) (l := E) (Nat.le_of_lt h1)
        omega
      · obtain ⟨-, x, hx, hx2⟩ := hs.literals h0
        rw [Nat.succ_eq_add_one, take_succ_flatMap _ hx, List.length_append] at h2
        have h3 : syncs (x.2.transmitted L os) ≤ (x.2.answers L os).length := by
          rw [Command.answers, List.length_append, List.length_replicate]; omega
        omega
  -- the bytes of a command that was read
  have hread : ∀ x, e < k → E[e]? = some x → (transmittedBytes L os x).length ≤ (ClientView.of A).sent.length := by
    intro x h1 hx
    have h2 := take_flatMap_length' (transmittedBytes L os) (l := E) (Nat.succ_le_of_lt h1)
    rw [Nat.succ_eq_add_one, take_succ_flatMap _ hx, List.length_append] at h2
    omega
  have hne : ∀ x ∈ E, 0 < (transmittedBytes L os x).length := by
    intro x hx
    have hrt := hE.roundTrip x hx
    unfold transmittedBytes Command.transmitted
    rw [List.length_pos_iff]
    unfold Command.RoundTrip at hrt
    cases hrt' : L.encodeCommand x.2 with
    | nil => rw [hrt'] at hrt; cases hrt
    | cons f fs =>
      rw [hrt'] at hrt
      have hf : ∃ l, f = .line l ∧ l ≠ [] := by
        cases hrt with
        | last hl => exact ⟨_, rfl, hl.ne_nil⟩
        | literal hl => exact ⟨_, rfl, hl.ne_nil⟩
      obtain ⟨l, rfl, hl⟩ := hf
      rw [List.takeWhile_cons_of_pos (by rfl), wire_cons]
      intro h0
      exact hl (List.append_eq_nil_iff.mp h0).1
  rcases hw with ⟨⟨hf1, hf2, -⟩, -⟩ | ⟨hd, cmd, q, h1, h2, h3⟩
  · exfalso
    rw [hf1, List.length_nil] at hlen hread
    rcases hpos with h4 | ⟨h4, h5⟩
    · have hle := hs.le
      obtain ⟨x, hx⟩ : ∃ x, E[e]? = some x := ⟨_, List.getElem?_eq_getElem (by omega)⟩
      have := hread x h4 hx
      have := hne x (List.mem_of_getElem? hx)
      omega
    · subst h4
      obtain ⟨h6, -⟩ := hs.literals (by omega)
      have := List.length_pos_iff.mpr h6
      omega
  · have hx := hrem _ _ h1
    have hmem := List.mem_of_getElem? hx
    have hreg := hE.regular _ hmem
    obtain ⟨o, ho⟩ := Command.body_of_regular hreg
    simp only at ho hreg
    rcases h3 with ⟨-, -, pre, d, post, g1, g2, g3⟩ | ⟨g, -⟩ | ⟨g, -⟩
    · refine ⟨hd, cmd, q, pre, d, post, h1, h2, g1, g2, g3, hreg, ?_⟩
      have hrel : (ClientView.of A).released ≤ syncs (cmd.transmitted L os) := by
        rcases hc.current with ⟨h0, -⟩ | ⟨y, hy, -, h0⟩
        · exact absurd h0 h2
        · rw [he, hx] at hy
          cases hy
          exact h0
      have hsy : syncs pre < syncs (L.encodeCommand cmd) := by
        rw [g1, syncs_append]
        simp only [syncs]
        omega
      rcases hpos with h4 | ⟨h4, h5⟩
      · -- the server has read the whole command
        rcases Nat.lt_or_ge (ClientView.of A).released (cmd.answers L os).length with h5 | h5
        · rw [List.getElem?_append_left] at ha
          · rw [flatMap_getElem? _ hx h4 h5] at ha
            rcases Nat.lt_or_ge (ClientView.of A).released (syncs (cmd.transmitted L os)) with h6 | h6
            · left
              refine ⟨?_, h6⟩
              simp only [Command.answers] at ha
              rw [List.getElem?_append_left (by rw [List.length_replicate]; exact h6), List.getElem?_replicate, if_pos h6] at ha
              cases ha
              rfl
            · right
              cases hacc : cmd.accepted L os with
              | true =>
                rw [Command.answers_accepted hacc] at h5
                omega
              | false =>
                obtain ⟨text, t1, t2⟩ := Command.answers_rejected hO hacc
                refine ⟨rfl, ?_, text, t1, ?_⟩
                · rcases Command.transmitted_cases (hE.sync _ hmem) with ⟨e1, -⟩ | ⟨-, d', post', e1, -⟩
                  · simp only at e1; rw [hacc] at e1; cases e1
                  · exact syncs_unique g1 e1 (by omega)
                · simp only at ha
                  rw [t2, List.getElem?_append_right (by rw [List.length_replicate]; exact h6), List.length_replicate] at ha
                  have : (ClientView.of A).released - syncs (cmd.transmitted L os) = 0 := by omega
                  rw [this] at ha
                  cases ha
                  rfl
          · have h7 := take_flatMap_length' (fun x : RawHandle × Command => x.2.answers L os) (l := E) (Nat.succ_le_of_lt h4)
            rw [Nat.succ_eq_add_one, take_succ_flatMap _ hx, List.length_append] at h7
            simp only at h7
            omega
        · exfalso
          have h6 : syncs (cmd.transmitted L os) ≤ (cmd.answers L os).length := by
            rw [Command.answers, List.length_append, List.length_replicate]; omega
          cases hacc : cmd.accepted L os with
          | true =>
            rcases Command.transmitted_cases (hE.sync _ hmem) with ⟨-, e2⟩ | ⟨e1, -⟩
            · simp only at e2
              rw [e2] at hrel h6
              omega
            · simp only at e1; rw [hacc] at e1; cases e1
          | false =>
            obtain ⟨text, t1, t2⟩ := Command.answers_rejected hO hacc
            rw [t2, List.length_append, List.length_replicate, List.length_singleton] at h5
            omega
      · subst h4
        left
        obtain ⟨-, y, hy, hy2⟩ := hs.literals (by omega)
        rw [hx] at hy
        cases hy
        refine ⟨?_, by simp only at hy2; omega⟩
        rw [List.getElem?_append_right (by omega), Nat.add_sub_cancel_left, List.getElem?_replicate, if_pos h5] at ha
        cases ha
        rfl
    · simp [Command.isAuthenticate, ho] at g
    · simp [Command.isIdle, ho] at g

/-- A tagged BAD of the user of the server is not for the command the client is sending. -/
theorem PoliteServer.bad_other {E : List (RawHandle × Command)} (hE : MixedCommands L os E) (hP : PoliteServer gr T)
    {P Q : List NItem} (hT : T = P ++ Q) {A : List CItem} {k m : Nat}
    (hc : ClientAt L os E (ClientView.of A)) (hs : ServerAt L os gr E (serverItems P) k m)
    (hg : serverGiven (serverItems P) <+: clientOutput A) {hd h : RawHandle} {tag : Tag} {body : StatusBody}
    (hm : .response (some hd) (.status (.tagged tag body)) ∈ serverMessages gr (serverItems P)) (hb : body.kind = .bad)
    {cmd : Command} (hx : E[(ClientView.of A).ended.length]? = some (h, cmd)) {pre post : List Fragment} {d : Bytes}
    (henc : L.encodeCommand cmd = pre ++ .literal d .sync :: post) (hsent : (ClientView.of A).sent = wire pre) :
    tag ≠ cmd.tag := by
  rintro rfl
  simp only [serverMessages, List.mem_cons, reduceCtorEq, false_or] at hm
  obtain ⟨i, hi, hm⟩ := List.mem_flatMap.mp hm
  obtain ⟨B1, B2, hB⟩ := List.append_of_mem hi
  obtain ⟨P1, P2, hP12, h1, -⟩ := serverItems_split hB
  obtain ⟨c, hc1, hc2⟩ := hP.bad P1 i (P2 ++ Q) hd cmd.tag body (by rw [hT, hP12]; simp) hm hb
  have hc3 : c ∈ serverCommands (serverItems P) := by
    rw [hB]
    unfold serverCommands at hc1 ⊢
    rw [h1] at hc1
    rw [List.filterMap_append]
    exact List.mem_append_left _ hc1
  rw [serverCommands_filter, hs.reads, serverCommands, List.filterMap_map, List.mem_filterMap] at hc3
  obtain ⟨x, hx1, hx2⟩ := hc3
  have hacc : x.2.accepted L os = true ∧ x.2 = c := by
    simp only [Function.comp, Command.serverRead] at hx2
    split at hx2
    · rename_i h0
      simp only [SItem.command?, Option.some.injEq] at hx2
      exact ⟨h0, hx2⟩
    · cases hx2
  obtain ⟨hacc, rfl⟩ := hacc
  obtain ⟨j, hj⟩ := List.mem_iff_getElem?.mp hx1
  have hjk : j < k := by
    have := (List.getElem?_eq_some_iff.mp hj).1
    rw [List.length_take] at this
    omega
  rw [List.getElem?_take, if_pos hjk] at hj
  have hje : j = (ClientView.of A).ended.length := by
    refine (List.getElem?_inj (l := E.map fun x => x.2.tag) ?_ hE.tags).mp ?_
    · rw [List.length_map]
      exact (List.getElem?_eq_some_iff.mp hj).1
    · rw [List.getElem?_map, List.getElem?_map, hj, hx]
      simp [hc2]
  rw [← hje, hj] at hx
  cases hx
  have hmem := List.mem_of_getElem? hj
  have hlen := hg.length_le
  rw [hc.output.1, hs.given, hs.taken, List.length_append, List.length_append, hsent, ← hje] at hlen
  have h2 := take_flatMap_length' (transmittedBytes L os) (l := E) (Nat.succ_le_of_lt hjk)
  rw [Nat.succ_eq_add_one, take_succ_flatMap _ hj, List.length_append] at h2
  have h3 : transmittedBytes L os (h, cmd) = wire pre ++ (d ++ wire post) := by
    rcases Command.transmitted_cases (hE.sync _ hmem) with ⟨-, e2⟩ | ⟨e1, -⟩
    · simp only at e2
      rw [transmittedBytes]
      simp only
      rw [e2, henc, wire_append, wire_cons]
      rfl
    · rw [hacc] at e1; cases e1
  have h4 := List.length_pos_iff.mpr (CommandEncodes.after (hE.roundTrip _ hmem) henc)
  rw [h3] at h2
  simp only [List.length_append] at h2 h4
  omega

/-! ## Client and server agree -/

/-- Data or a status from the user of the server. -/
def ServerMessage.said? : ServerMessage → Option Response
  | .response (some _) r => r.told?
  | _ => none

/-- Data or a status that the client reports. -/
def CItem.heard? (i : CItem) : Option Response := i.event?.bind ClientEvent.told?

/-- The event reports the end of a command, data, a status, or the greeting. -/
def ClientEvent.Usual (ms : List ServerMessage) (e : ClientEvent) : Prop :=
  e.isTerminal = true ∨ e.told?.isSome = true ∨ ∃ g, e = .greetingReceived g ∧ .greeting g ∈ ms

/-- The client, the number of answers it has read, and what it has reported. -/
def Agreed (L : Lib) (os : ServerOptions) (E : List (RawHandle × Command)) (ms : List ServerMessage) (A : List CItem) :
    Prop :=
  ClientAt L os E (ClientView.of A) ∧
  ((ms.take (clientDecoded L A).length).filter ServerMessage.own).length =
    ((E.take (ClientView.of A).ended.length).flatMap fun x => x.2.answers L os).length + (ClientView.of A).released ∧
  A.filterMap CItem.heard? = (ms.take (clientDecoded L A).length).filterMap ServerMessage.said? ∧
  ∀ e ∈ A.filterMap CItem.event?, e.Usual ms

theorem usual_snoc {ms : List ServerMessage} {A : List CItem} {i : CItem} (h : ∀ e ∈ A.filterMap CItem.event?, e.Usual ms)
    (hi : ∀ e, i.event? = some e → e.Usual ms) : ∀ e ∈ (A ++ [i]).filterMap CItem.event?, e.Usual ms := by
  intro e he
  rw [List.filterMap_append] at he
  rcases List.mem_append.1 he with he | he
  · exact h e he
  · obtain ⟨j, hj, he⟩ := List.mem_filterMap.1 he
    cases List.mem_singleton.1 hj
    exact hi e he

theorem usual_none {ms : List ServerMessage} {i : CItem} (h : i.event? = none) : ∀ e, i.event? = some e → e.Usual ms := by
  intro e he
  rw [h] at he
  cases he

theorem Agreed.quiet {E : List (RawHandle × Command)} {ms : List ServerMessage} {A : List CItem} {i : CItem}
    (h : Agreed L os E ms A) (hi : i.decoded L = []) (h1 : ClientAt L os E (ClientView.of (A ++ [i])))
    (h2 : ((E.take (ClientView.of (A ++ [i])).ended.length).flatMap fun x => x.2.answers L os).length +
        (ClientView.of (A ++ [i])).released =
      ((E.take (ClientView.of A).ended.length).flatMap fun x => x.2.answers L os).length + (ClientView.of A).released)
    (h3 : i.heard? = none) (h4 : ∀ e, i.event? = some e → e.Usual ms) :
    Agreed L os E ms (A ++ [i]) := by
  have : clientDecoded L (A ++ [i]) = clientDecoded L A := by
    rw [clientDecoded_append]
    simp [clientDecoded, hi]
  refine ⟨h1, ?_, ?_, usual_snoc h.2.2.2 h4⟩
  · rw [h2, this, h.2.1]
  · rw [List.filterMap_append, this, ← h.2.2.1]
    simp [h3]

theorem Agreed.read {E : List (RawHandle × Command)} {ms : List ServerMessage} {A : List CItem} {i : CItem}
    (h : Agreed L os E ms A) {r : Incoming} (hi : i.decoded L = [r]) {m : ServerMessage}
    (hm : ms[(clientDecoded L A).length]? = some m) (h1 : ClientAt L os E (ClientView.of (A ++ [i])))
    (h2 : ((E.take (ClientView.of (A ++ [i])).ended.length).flatMap fun x => x.2.answers L os).length +
        (ClientView.of (A ++ [i])).released =
      ((E.take (ClientView.of A).ended.length).flatMap fun x => x.2.answers L os).length + (ClientView.of A).released +
        (if m.own then 1 else 0))
    (h3 : i.heard? = m.said?) (h4 : ∀ e, i.event? = some e → e.Usual ms) :
    Agreed L os E ms (A ++ [i]) := by
  have : (clientDecoded L (A ++ [i])).length = (clientDecoded L A).length + 1 := by
    rw [clientDecoded_append]
    simp [clientDecoded, hi]
  refine ⟨h1, ?_, ?_, usual_snoc h.2.2.2 h4⟩
  · rw [h2, this, List.take_add_one, hm, List.filter_append, List.length_append, h.2.1]
    cases hmo : m.own <;> simp [hmo]
  · rw [List.filterMap_append, this, List.take_add_one, hm, List.filterMap_append, ← h.2.2.1, Option.toList_some,
      List.filterMap_cons, List.filterMap_cons, h3]
    rfl

theorem Net.Linked.agreed (hL : L.Lawful) (h : Net.Linked L gc oc gs os gr n T) (hO : ServerOptions.Built L os)
    (hrt : ∀ m ∈ serverMessages gr (serverItems T), m.RoundTrip L oc) (hmax : 0 < os.maxCommandSize)
    (hE : MixedCommands L os (clientEnqueued (clientItems T))) (hP : PoliteServer gr T) {P Q : List NItem}
    (hT : T = P ++ Q) :
    Agreed L os (clientEnqueued (clientItems T)) (serverMessages gr (serverItems T)) (clientItems P) := by
  induction P using snocInduction generalizing Q with
  | nil =>
    refine ⟨⟨?_, .inl ⟨rfl, rfl⟩⟩, rfl, rfl, fun e he => (by cases he)⟩
    intro n en hn
    cases hn
  | snoc P it ih =>
    have hT' : T = P ++ it :: Q := by rw [hT]; simp
    have IH := ih hT'
    cases it with
    | server j =>
      have : clientItems (P ++ [.server j]) = clientItems P := by
        rw [clientItems_append]; exact List.append_nil _
      rw [this]
      exact IH
    | client i =>
      have hC : clientItems (P ++ [.client i]) = clientItems P ++ [i] := by rw [clientItems_append]; rfl
      rw [hC]
      obtain ⟨cops, hct⟩ := h.client
      obtain ⟨sops, hst⟩ := h.server
      have hCT : clientItems T = clientItems P ++ i :: clientItems Q := by rw [hT', clientItems_append]; rfl
      have hST : serverItems T = serverItems P ++ serverItems Q := by rw [hT', serverItems_append]; rfl
      have hct' := hct
      rw [hCT] at hct'
      have hst' := hst
      rw [hST] at hst'
      have hguard := Client.trace_guard hL hct'
      have hrem : ∀ x q, (ClientView.of (clientItems P)).remaining = x :: q →
          (clientEnqueued (clientItems T))[(ClientView.of (clientItems P)).ended.length]? = some x := by
        intro x q hx
        rw [hCT]
        exact ClientView.of_remaining_get hx
      have hg := (h.causal P _ hT').2
      obtain ⟨k, m, hs⟩ := hE.serverAt hO hmax hst' (hg.trans IH.1.output.2)
      have hsnoc := ClientView.of_snoc (clientItems P) i
      have quiet : i.decoded L = [] → (ClientView.of (clientItems P ++ [i])).ended = (ClientView.of (clientItems P)).ended →
          (ClientView.of (clientItems P ++ [i])).sent = (ClientView.of (clientItems P)).sent →
          (ClientView.of (clientItems P ++ [i])).released = (ClientView.of (clientItems P)).released → i.event? = none →
          Agreed L os (clientEnqueued (clientItems T)) (serverMessages gr (serverItems T)) (clientItems P ++ [i]) := by
        intro h1 h2 h3 h4 h5
        exact IH.quiet h1 (IH.1.congr h2 h3 h4) (by rw [h2, h4]) (by rw [CItem.heard?, h5]; rfl)
          (usual_none h5)
      have unaffected : ∀ r m, i.decoded L = [r] →
          (serverMessages gr (serverItems T))[(clientDecoded L (clientItems P)).length]? = some m → m.own = false →
          (ClientView.of (clientItems P ++ [i])).ended = (ClientView.of (clientItems P)).ended →
          (ClientView.of (clientItems P ++ [i])).sent = (ClientView.of (clientItems P)).sent →
          (ClientView.of (clientItems P ++ [i])).released = (ClientView.of (clientItems P)).released →
          i.heard? = m.said? → (∀ e, i.event? = some e → e.Usual (serverMessages gr (serverItems T))) →
          Agreed L os (clientEnqueued (clientItems T)) (serverMessages gr (serverItems T)) (clientItems P ++ [i]) := by
        intro r m h1 h0 hm h2 h3 h4 h5 h6
        exact IH.read h1 h0 (IH.1.congr h2 h3 h4) (by rw [h2, h4, hm]; rfl) h5 h6
      have answer : ∀ a, (serverMessages gr (serverItems P))[(clientDecoded L (clientItems P)).length]? = some a →
          a.own = true → Waiting L (ClientView.of (clientItems P)) → _ := fun a h1 h2 hw =>
        IH.1.answer hO hE hs hg hw hrem (a := a) (by
          have hlt := (List.getElem?_eq_some_iff.mp h1).1
          have h3 := own_getElem? h1 h2
          have h4 := IH.2.1
          rw [hST, serverMessages_append, List.take_append_of_le_length (Nat.le_of_lt hlt)] at h4
          rw [h4] at h3
          exact h3)
      cases i with
      | enqueue hd c => exact quiet rfl (by rw [hsnoc]; rfl) (by rw [hsnoc]; rfl) (by rw [hsnoc]; rfl) rfl
      | input b => exact quiet rfl (by rw [hsnoc]; rfl) (by rw [hsnoc]; rfl) (by rw [hsnoc]; rfl) rfl
      | setAuth d r =>
        cases r <;> exact quiet rfl (by rw [hsnoc]; rfl) (by rw [hsnoc]; rfl) (by rw [hsnoc]; rfl) rfl
      | setDone r =>
        cases r <;> exact quiet rfl (by rw [hsnoc]; rfl) (by rw [hsnoc]; rfl) (by rw [hsnoc]; rfl) rfl
      | failed e => exact quiet rfl (by rw [hsnoc]; rfl) (by rw [hsnoc]; rfl) (by rw [hsnoc]; rfl) rfl
      | starved => exact quiet rfl (by rw [hsnoc]; rfl) (by rw [hsnoc]; rfl) (by rw [hsnoc]; rfl) rfl
      | output b =>
        refine IH.quiet rfl ?_ (by rw [hsnoc]; rfl) rfl (usual_none rfl)
        rw [hsnoc]
        exact IH.1.sendOutput hE hguard.2 hrem
      | sent e =>
        obtain ⟨-, hd, cmd, q, h1, h2⟩ := hguard
        have hx := hrem _ _ h1
        have hmem := List.mem_of_getElem? hx
        obtain ⟨o, ho⟩ := Command.body_of_regular (hE.regular _ hmem)
        simp only at ho
        rcases h2 with ⟨rfl, -, -, g1, g2⟩ | ⟨-, g, -⟩ | ⟨-, g, -⟩ | ⟨-, g, -⟩
        · have hce := hE.roundTrip _ hmem
          have hrel : (ClientView.of (clientItems P)).released ≤ syncs (cmd.transmitted L os) := by
            rcases IH.1.current with ⟨-, h0⟩ | ⟨y, hy, -, h0⟩
            · omega
            · rw [hx] at hy
              cases hy
              exact h0
          obtain ⟨a1, a2⟩ := Command.syncs_transmitted (hE.sync _ hmem) (by
            simp only
            omega)
          simp only at a1 a2
          refine IH.quiet rfl ?_ ?_ rfl (fun e he => (by cases he; exact .inl rfl))
          · rw [hsnoc]
            refine IH.1.terminate hx ?_ ?_
            · unfold ReportedAs
              rw [if_pos a1]
            · rw [g1, transmittedBytes, a2]
          · rw [hsnoc]
            show ((List.take ((ClientView.of (clientItems P)).ended ++ [_]).length _).flatMap _).length + 0 = _
            rw [List.length_append, List.length_singleton, take_succ_flatMap _ hx, List.length_append,
              Command.answers_accepted a1]
            rw [g2, a2, Nat.add_zero]
        · simp [Command.isAuthenticate, ho] at g
        · simp [Command.isIdle, ho] at g
        · simp [Command.isIdle, ho] at g
      | released w =>
        obtain ⟨-, hw, -, q, hroute, hmsg⟩ := hguard
        have hdec : (CItem.released w).decoded L = [.response (.continuationRequest q)] := by
          obtain ⟨_, _, -, -, -, -, hd⟩ := hmsg
          have hd : L.decodeResponse _ = _ := hd
          simp only [CItem.decoded, hd]
        obtain ⟨a, h1, h2, h3, -⟩ := h.next_message hL hrt hT' hdec
        cases a with
        | greeting g => cases h3
        | response hd r =>
          cases h3
          cases hd with
          | some hd => exact absurd (List.mem_of_getElem? h2) (hP.continuation hd q)
          | none =>
            obtain ⟨hd, cmd, q', pre, d, post, e1, e2, e3, e4, e5, -, ⟨-, e6⟩ | ⟨-, -, text, -, e6⟩⟩ := answer _ h1 rfl hw
            · have hx := hrem _ _ e1
              refine IH.read hdec h2 ?_ ?_ rfl (usual_none rfl)
              · rw [hsnoc]
                refine ⟨IH.1.ended, .inr ⟨_, hx, ?_, e6⟩⟩
                rcases IH.1.current with ⟨h0, -⟩ | ⟨y, hy, h0, -⟩
                · exact absurd h0 e2
                · rw [hx] at hy
                  cases hy
                  exact h0
              · rw [hsnoc]
                rfl
            · cases e6
      | received w e =>
        obtain ⟨hw, -, ⟨-, g, rfl, -⟩ | ⟨hgr, r, hr, -⟩⟩ := hguard
        · have hdec : (CItem.received w (.greetingReceived g)).decoded L = [.greeting g] := rfl
          obtain ⟨a, h1, h2, h3, -⟩ := h.next_message hL hrt hT' hdec
          cases a with
          | greeting g' =>
            cases h3
            exact unaffected _ _ hdec h2 rfl (by rw [hsnoc]; rfl) (by rw [hsnoc]; rfl) (by rw [hsnoc]; rfl) rfl
              (fun e he => (by cases he; exact .inr (.inr ⟨_, rfl, List.mem_of_getElem? h2⟩)))
          | response hd r => cases h3
        · have hw := hw hgr
          have hdec := response_decoded (L := L) (w := w) (route_response hr)
          obtain ⟨a, h1, h2, h3, -⟩ := h.next_message hL hrt hT' hdec
          cases a with
          | greeting g => cases h3
          | response hd r =>
            cases h3
            cases hd with
            | none =>
              obtain ⟨hd, cmd, q', pre, d, post, e1, e2, e3, e4, e5, hreg, ⟨e6, -⟩ | ⟨e7, e8, text, e9, e6⟩⟩ :=
                answer _ h1 rfl hw
              · cases e6
                rw [route_continuation_regular (h := hd) (by simp [ClientView.current, e2, e1]) hreg] at hr
                cases hr
              · cases e6
                have hx := hrem _ _ e1
                obtain ⟨o, ho⟩ := Command.body_of_regular hreg
                have hcur : (ClientView.of (clientItems P)).current = some (hd, cmd) := by
                  simp [ClientView.current, e2, e1]
                simp only [ClientView.route, hcur, ho, if_true, Option.some.injEq] at hr
                subst hr
                refine IH.read hdec h2 ?_ ?_ rfl (fun e he => (by cases he; exact .inl rfl))
                · rw [hsnoc]
                  refine ClientAt.terminate (v := { ClientView.of (clientItems P) with consumed := (ClientView.of (clientItems P)).consumed ++ w })
                    (IH.1.congr rfl rfl rfl) hx ?_ ?_
                  · unfold ReportedAs
                    rw [if_neg (by simp [e7])]
                    exact ⟨text, e9, rfl⟩
                  · show (ClientView.of (clientItems P)).sent = _
                    rw [e4, e8]
                    rfl
                · rw [hsnoc]
                  show ((List.take ((ClientView.of (clientItems P)).ended ++ [_]).length _).flatMap _).length + 0 = _
                  obtain ⟨text', -, t2⟩ := Command.answers_rejected hO e7
                  rw [List.length_append, List.length_singleton, take_succ_flatMap _ hx, List.length_append]
                  simp only
                  rw [t2, List.length_append, List.length_replicate, List.length_singleton, e5, e8]
                  simp only [ServerMessage.own, if_true]
                  omega
            | some hd =>
              cases r with
              | continuationRequest q => exact absurd (List.mem_of_getElem? h2) (hP.continuation hd q)
              | data d =>
                cases hr
                exact unaffected _ _ hdec h2 rfl (by rw [hsnoc]; rfl) (by rw [hsnoc]; rfl) (by rw [hsnoc]; rfl) rfl
                  (fun e he => (by cases he; exact .inr (.inl rfl)))
              | status st =>
                have he : e = .statusReceived st := by
                  rcases hw with ⟨⟨hf, -⟩, -⟩ | ⟨hd', cmd, q', e1, e2, e3⟩
                  · have hcur : (ClientView.of (clientItems P)).current = none := by simp [ClientView.current, hf]
                    simp only [ClientView.route, hcur, Option.some.injEq] at hr
                    exact hr.symm
                  · have hcur : (ClientView.of (clientItems P)).current = some (hd', cmd) := by
                      simp [ClientView.current, e2, e1]
                    have hx := hrem _ _ e1
                    obtain ⟨o, ho⟩ := Command.body_of_regular (hE.regular _ (List.mem_of_getElem? hx))
                    simp only at ho
                    rcases e3 with ⟨-, -, pre, d, post, g1, g2, -⟩ | ⟨g, -⟩ | ⟨g, -⟩
                    · cases st with
                      | tagged tag body =>
                        simp only [ClientView.route, hcur, ho] at hr
                        split at hr
                        · rename_i htag
                          split at hr
                          · rename_i hbad
                            exact absurd htag (hP.bad_other hE hT' IH.1 hs hg (List.mem_of_getElem? h1) hbad hx g1 g2)
                          · cases hr; rfl
                        · cases hr; rfl
                      | _ =>
                        simp only [ClientView.route, hcur, Option.some.injEq] at hr
                        exact hr.symm
                    · simp [Command.isAuthenticate, ho] at g
                    · simp [Command.isIdle, ho] at g
                subst he
                exact unaffected _ _ hdec h2 rfl (by rw [hsnoc]; rfl) (by rw [hsnoc]; rfl) (by rw [hsnoc]; rfl) rfl
                  (fun e he => (by cases he; exact .inr (.inl rfl)))

end ImapFlow
