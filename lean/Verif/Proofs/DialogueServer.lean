import Verif.Proofs.DialogueClient

/-!
# Dialogues: what the server hears
-/

namespace ImapFlow

variable {L : Lib} {g : HandleGenerator} {os : ServerOptions} {gr : Greeting} {ops : List ServerOp} {s : Server}
  {S S' : List SItem} {i : SItem}

/-- A message of the phase is not discarded. -/
theorem Taken.not_discarded {p : ServerPhase} {e : ServerEvent} {x : ServerError} {rs : List ServerMessage}
    (h : Taken L os p x.bytes e) (hd : Discarded L os p x rs) (hx : ∀ w, x ≠ .commandTooLong w) : False := by
  cases p with
  | idlePending => exact h
  | command =>
    obtain ⟨c, hm, -⟩ := h
    cases x with
    | commandTooLong w => exact hx w rfl
    | literalTooLong w => obtain ⟨-, _, _, _, hu, -⟩ := hd; exact hm.not_undecodable hu
    | malformedMessage w => obtain ⟨-, -, _, hu, -⟩ := hd; exact hm.not_undecodable hu
    | expectedCrlfGotLf w => exact hd.2.1.not_message hm
  | authenticate =>
    obtain ⟨c, hm, -⟩ := h
    cases x with
    | commandTooLong w => exact hx w rfl
    | literalTooLong w => exact hd.2
    | malformedMessage w => obtain ⟨-, ⟨_, hu⟩, -⟩ := hd; exact hm.not_undecodable hu
    | expectedCrlfGotLf w => exact hd.2.1.not_message hm
  | idle =>
    obtain ⟨hm, -⟩ := h
    cases x with
    | commandTooLong w => exact hx w rfl
    | literalTooLong w => exact hd.2
    | malformedMessage w => obtain ⟨-, ⟨_, hu⟩, -⟩ := hd; exact hm.not_undecodable hu
    | expectedCrlfGotLf w => exact hd.2.1.not_message hm

theorem Taken.det {p : ServerPhase} {e e' : ServerEvent} {w : Bytes} (h : Taken L os p w e) (h' : Taken L os p w e') :
    e = e' := by
  cases p with
  | idlePending => exact h.elim
  | command =>
    obtain ⟨c, hm, rfl⟩ := h
    obtain ⟨c', hm', rfl⟩ := h'
    rw [hm.det hm']
  | authenticate =>
    obtain ⟨c, hm, rfl⟩ := h
    obtain ⟨c', hm', rfl⟩ := h'
    rw [hm.det hm']
  | idle => rw [h.2, h'.2]

/-- The server hears the message at the beginning of its input. -/
theorem Server.hears (h : (Server.new g os gr).trace L ops = .ok (s, S ++ i :: S')) (hi : i.reads = true)
    {w rest : Bytes} {e : ServerEvent} (ht : Taken L os (serverPhase S) w e) (hl : w.length ≤ os.maxCommandSize)
    (hun : serverUnread S <+: w ++ rest) : i = .received w e := by
  obtain ⟨s1, hinv⟩ := Server.prefix_inv h
  have hg := Server.trace_guard h
  have hX := (Server.taken_prefix hinv hg).trans hun
  have hph := ServerView.of_phase gr S
  cases i with
  | received w' e' =>
    obtain ⟨-, -, -, ht', -⟩ := hg
    rw [hph] at ht'
    have : w' = w := ht'.complete.unique ht.complete hX (List.prefix_append ..)
    subst this
    rw [ht'.det ht]
  | failed x rs =>
    exfalso
    obtain ⟨-, -, hd, -⟩ := hg
    rw [hph] at hd
    have hxx : ∀ w', x ≠ .commandTooLong w' := by
      rintro w' rfl
      obtain ⟨h4, -, h5⟩ := hd.tooLong
      have hpw : w <+: w' := prefix_of_le (List.prefix_append ..) hX (by show w.length ≤ w'.length; omega)
      exact ht.complete.not_unfinished hpw h5
    have he : x.bytes = w := (hd.complete hxx).unique ht.complete hX (List.prefix_append ..)
    subst he
    exact ht.not_discarded hd hxx
  | _ => cases hi

/-- Without input the server hears nothing. -/
theorem Server.hears_nothing (h : (Server.new g os gr).trace L ops = .ok (s, S ++ i :: S')) (hmax : 0 < os.maxCommandSize)
    (hi : i.reads = true) : serverUnread S ≠ [] := by
  intro hnil
  obtain ⟨s1, hinv⟩ := Server.prefix_inv h
  have hg := Server.trace_guard h
  have hX := Server.taken_prefix hinv hg
  rw [hnil] at hX
  have hX := List.prefix_nil.mp hX
  have hph := ServerView.of_phase gr S
  have hne : ∀ {p : ServerPhase}, ¬ p.Complete L os [] := by
    intro p hp
    cases p with
    | idlePending => exact hp
    | command => exact ImapFlow.Complete.ne_nil hp rfl
    | authenticate => exact ImapFlow.Complete.ne_nil hp rfl
    | idle => exact ImapFlow.Complete.ne_nil hp rfl
  cases i with
  | received w' e' =>
    obtain ⟨-, -, -, ht', -⟩ := hg
    have hX : w' = [] := hX
    exact hne (hX ▸ ht'.complete)
  | failed x rs =>
    obtain ⟨-, -, hd, -⟩ := hg
    have hX : x.bytes = [] := hX
    by_cases hxx : ∃ w', x = .commandTooLong w'
    · obtain ⟨w', rfl⟩ := hxx
      obtain ⟨h4, -, -⟩ := hd.tooLong
      have hX : w' = [] := hX
      rw [hX] at h4
      simp at h4
      omega
    · exact hne (hX ▸ hd.complete fun w' hw' => hxx ⟨w', hw'⟩)
  | _ => cases hi

/-- While IDLE is neither accepted nor rejected the server hears nothing. -/
theorem Server.hears_not_pending (h : (Server.new g os gr).trace L ops = .ok (s, S ++ i :: S')) (hi : i.reads = true) :
    serverPhase S ≠ .idlePending := by
  intro hp
  have hg := Server.trace_guard h
  have hph := ServerView.of_phase gr S
  rw [hp] at hph
  cases i with
  | received w' e' => obtain ⟨-, -, -, ht', -⟩ := hg; rw [hph] at ht'; exact ht'
  | failed x rs => obtain ⟨-, -, hd, -⟩ := hg; rw [hph] at hd; exact hd
  | _ => cases hi

/-! ## Literals -/

/-- The number of literals of the current command that the server accepted with a continuation request. -/
def accepts (L : Lib) (os : ServerOptions) (S : List SItem) : Nat := ((serverLiterals S).flatMap (answerOf L os)).length

theorem answerOf_length {c : Command} (hrt : c.RoundTrip L os) {pre post : List Fragment}
    (he : L.encodeCommand c = pre ++ post) :
    ((announcements [] pre).flatMap (answerOf L os)).length = syncs pre := by
  induction pre using snocInduction generalizing post with
  | nil => rfl
  | snoc pre f ih =>
    have he' : L.encodeCommand c = pre ++ f :: post := by rw [he]; simp
    have := ih he'
    rw [announcements_append, List.flatMap_append, List.length_append, this, syncs_append]
    cases f with
    | line l => simp [announcements, syncs]
    | literal d mode =>
      have hd := CommandEncodes.decodes_at hrt he'
      rw [List.nil_append] at hd
      cases mode <;> simp [announcements, answerOf, hd, LiteralAnswer, syncs]

theorem mem_announcements {p q : Bytes} {fs : List Fragment} (h : q ∈ announcements p fs) :
    ∃ pre d mode post, fs = pre ++ .literal d mode :: post ∧ q = p ++ wire pre := by
  induction fs generalizing p with
  | nil => cases h
  | cons f fs ih =>
    cases f with
    | line l =>
      obtain ⟨pre, d, mode, post, h1, h2⟩ := ih h
      exact ⟨.line l :: pre, d, mode, post, by rw [h1]; rfl, by rw [h2]; simp [wire, Fragment.data]⟩
    | literal d0 m0 =>
      rcases List.mem_cons.mp h with rfl | h
      · exact ⟨[], d0, m0, fs, rfl, by simp [wire]⟩
      · obtain ⟨pre, d, mode, post, h1, h2⟩ := ih h
        exact ⟨.literal d0 m0 :: pre, d, mode, post, by rw [h1]; rfl, by rw [h2]; simp [wire, Fragment.data]⟩

theorem Command.Fits.transmitted {c : Command} (h : c.Fits L os) : c.transmitted L os = L.encodeCommand c := by
  unfold Command.transmitted
  have h2 : ∀ f ∈ L.encodeCommand c, Fragment.accepted os f = true := by
    intro f hf
    cases f with
    | line l => rfl
    | literal d mode => simpa [Fragment.accepted] using h.2 d mode hf
  generalize L.encodeCommand c = fs at h2
  induction fs with
  | nil => rfl
  | cons f fs ih =>
    rw [List.takeWhile_cons, if_pos (h2 f List.mem_cons_self), ih fun f' hf' => h2 f' (List.mem_cons_of_mem _ hf')]

/-- A literal that the server accepts is the next one of the command. -/
theorem Server.literal_next (hO : ServerOptions.Built L os) {p : Bytes} {rs : List ServerMessage}
    (h : (Server.new g os gr).trace L ops = .ok (s, S ++ .literal p rs :: S')) {c : Command} (hrt : c.RoundTrip L os)
    (hf : c.Fits L os) {rest : Bytes} (hun : serverUnread S <+: wire (L.encodeCommand c) ++ rest) :
    serverPhase S = .command ∧ p <+: serverUnread S ∧ (∀ q ∈ serverLiterals S, q.length < p.length) ∧
    ∃ pre d mode post, L.encodeCommand c = pre ++ .literal d mode :: post ∧ p = wire pre ∧
      rs = LiteralAnswer os mode ∧ accepts L os S ≤ syncs pre ∧ answerOf L os p = rs := by
  obtain ⟨hp, hpu, -, tag, k, mode, ha, hdec, -, hrs⟩ := C21_server_literal hO h
  obtain ⟨-, -, -, -, hlt, -⟩ := Server.trace_guard h
  rw [Server.of_literals h] at hlt
  obtain ⟨hl1, hl2⟩ := Server.literals_at h hp
  refine ⟨hp, hpu, hlt, ?_⟩
  have hpos : ∀ {q : Bytes} {k : Nat}, Announces (commandFraming L os) q k → 0 < q.length := by
    rintro q k ⟨p, l, e, rfl, -, hl, -⟩
    have := List.length_pos_iff.mpr hl.ne_nil
    rw [List.length_append]
    omega
  have hmem : ∀ {q : Bytes} {k : Nat}, q <+: serverUnread S → Announces (commandFraming L os) q k →
      q ∈ announcements [] (L.encodeCommand c) := by
    intro q k hq hk
    have := CommandEncodes.announced_mem hrt .nil (X := wire (L.encodeCommand c) ++ rest)
      (by rw [List.nil_append]; show wire (c.transmitted L os) <+: _; rw [hf.transmitted]; exact List.prefix_append ..)
      (hq.trans hun) hk (hpos hk)
    have e : (L.encodeCommand c).takeWhile (Fragment.accepted os) = L.encodeCommand c := hf.transmitted
    rw [e] at this
    exact this
  obtain ⟨pre, d, mode', post, h1, h2⟩ := mem_announcements (hmem hpu ha)
  rw [List.nil_append] at h2
  have hdec' := CommandEncodes.decodes_at hrt h1
  rw [List.nil_append, ← h2, hdec] at hdec'
  cases hdec'
  refine ⟨pre, d, mode, post, h1, h2, hrs, ?_, by rw [answerOf, hdec, hrs]⟩
  rw [← answerOf_length hrt h1]
  refine (flatMap_sublist (answerOf L os) (sorted_sublist hl1 ?_ fun q hq => ?_)).length_le
  · have := (CommandEncodes.sorted hrt (os := os)).1
    rw [show (L.encodeCommand c).takeWhile (Fragment.accepted os) = L.encodeCommand c from hf.transmitted, h1,
      announcements_append] at this
    exact (List.pairwise_append.mp this).1
  · obtain ⟨hq1, k', hq2⟩ := hl2 q hq
    have hq3 := hmem hq1 hq2
    rw [h1, announcements_append] at hq3
    rcases List.mem_append.mp hq3 with hq3 | hq3
    · exact hq3
    · exfalso
      have hs := (CommandEncodes.sorted hrt (os := os)).1
      rw [show (L.encodeCommand c).takeWhile (Fragment.accepted os) = L.encodeCommand c from hf.transmitted, h1,
        announcements_append] at hs
      rw [List.nil_append] at hq3 hs
      have hs := (List.pairwise_append.mp hs).2.1
      have hlt := hlt q hq
      rw [h2] at hlt
      simp only [announcements, List.mem_cons] at hq3
      rcases hq3 with rfl | hq3
      · omega
      · simp only [announcements, List.pairwise_cons] at hs
        have := hs.1 q hq3
        omega

/-- A server that waits for input has accepted the literal before which its input ends. -/
theorem Server.literal_starved (h : (Server.new g os gr).trace L ops = .ok (s, S ++ .starved :: S'))
    (hp : serverPhase S = .command) {c : Command} (hrt : c.RoundTrip L os) (hf : c.Fits L os)
    {pre post : List Fragment} {d : Bytes} (he : L.encodeCommand c = pre ++ .literal d .sync :: post)
    (hun : serverUnread S = wire pre) : accepts L os S = syncs pre + 1 := by
  have hall := C21_server_literals_when_starved h hp
  have e : (L.encodeCommand c).takeWhile (Fragment.accepted os) = L.encodeCommand c := hf.transmitted
  have he' : L.encodeCommand c = (pre ++ [.literal d .sync]) ++ post := by rw [he]; simp
  have hs := (CommandEncodes.sorted hrt (os := os)).1
  rw [e, he', announcements_append] at hs
  have hs := (List.pairwise_append.mp hs).1
  have : serverLiterals S = announcements [] (pre ++ [.literal d .sync]) := by
    rw [hun] at hall
    refine hall.unique ⟨hs, fun q => ⟨fun hq => ?_, fun ⟨hq, k, hk⟩ => ?_⟩⟩
    · have hq' : q ∈ announcements [] (L.encodeCommand c) := by
        rw [he', announcements_append]; exact List.mem_append_left _ hq
      rw [← e] at hq'
      refine ⟨?_, (CommandEncodes.mem_announced hrt .nil hq').2⟩
      rw [announcements_append] at hq
      rcases List.mem_append.mp hq with hq | hq
      · obtain ⟨a, _, _, b, h1, h2⟩ := mem_announcements hq
        rw [List.nil_append] at h2
        rw [h1, h2, wire_append]
        exact List.prefix_append ..
      · simp only [announcements, List.nil_append, List.mem_singleton] at hq
        rw [hq]; exact List.prefix_rfl
    · have hpos : 0 < q.length := by
        obtain ⟨p, l, e, rfl, -, hl, -⟩ := hk
        have := List.length_pos_iff.mpr hl.ne_nil
        rw [List.length_append]
        omega
      have hm := CommandEncodes.announced_mem hrt .nil (X := wire (L.encodeCommand c))
        (by rw [List.nil_append, e]; exact List.prefix_rfl) (hq.trans (by rw [he, wire_append]; exact List.prefix_append ..)) hk hpos
      rw [e] at hm
      have hs' := (CommandEncodes.sorted hrt (os := os)).1
      rw [e, he, announcements_append] at hs'
      have hs' := (List.pairwise_append.mp hs').2.1
      rw [he, announcements_append] at hm
      rw [announcements_append]
      rcases List.mem_append.mp hm with hm | hm
      · exact List.mem_append_left _ hm
      · refine List.mem_append_right _ ?_
        simp only [announcements, List.nil_append, List.mem_cons] at hm hs' ⊢
        rcases hm with hm | hm
        · exact .inl hm
        · exfalso
          have h1 := (List.pairwise_cons.mp hs').1 q hm
          have h2 := hq.length_le
          omega
  rw [accepts, this, answerOf_length hrt he', syncs_append]
  rfl

end ImapFlow
