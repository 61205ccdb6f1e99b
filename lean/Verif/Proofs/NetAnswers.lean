import Verif.Proofs.NetDone

/-!
# The answers of a server to the literals of a command
-/

namespace ImapFlow

variable {L : Lib} {os : ServerOptions}

/-! ## Sorted lists -/

theorem sorted_sublist {l l' : List Bytes} (h : l.Pairwise fun a b => a.length < b.length)
    (h' : l'.Pairwise fun a b => a.length < b.length) (hs : ∀ q ∈ l, q ∈ l') : l.Sublist l' := by
  induction l' generalizing l with
  | nil =>
    cases l with
    | nil => exact List.Sublist.refl _
    | cons a l => cases hs a (by simp)
  | cons b l' ih =>
    rw [List.pairwise_cons] at h'
    cases l with
    | nil => exact List.nil_sublist _
    | cons a l =>
      rw [List.pairwise_cons] at h
      have ha := hs a (by simp)
      rcases List.mem_cons.mp ha with rfl | ha'
      · refine (ih h.2 h'.2 ?_).cons_cons _
        intro q hq
        rcases List.mem_cons.mp (hs q (by simp [hq])) with rfl | hq'
        · have := h.1 _ hq; omega
        · exact hq'
      · refine (ih (l := a :: l) (List.pairwise_cons.mpr h) h'.2 ?_).cons _
        intro q hq
        rcases List.mem_cons.mp (hs q hq) with rfl | hq'
        · have h1 := h'.1 a ha'
          rcases List.mem_cons.mp hq with rfl | hq
          · omega
          · have := h.1 _ hq; omega
        · exact hq'

theorem AllAnnouncements.unique {ε μ : Type} {F : Framing ε μ} {w : Bytes} {ls ls' : List Bytes}
    (h : AllAnnouncements F w ls) (h' : AllAnnouncements F w ls') : ls = ls' := by
  have h1 := sorted_sublist h.1 h'.1 fun q hq => (h'.2 q).mpr ((h.2 q).mp hq)
  have h2 := sorted_sublist h'.1 h.1 fun q hq => (h.2 q).mpr ((h'.2 q).mp hq)
  exact h1.eq_of_length_le h2.length_le

/-! ## Announcements of a command -/

/-- The beginnings of a message that end before a literal. -/
def announcements (p : Bytes) : List Fragment → List Bytes
  | [] => []
  | .line l :: fs => announcements (p ++ l) fs
  | .literal d _ :: fs => p :: announcements (p ++ d) fs

/-- The answer to an announcement. -/
def answerOf (L : Lib) (os : ServerOptions) (p : Bytes) : List ServerMessage :=
  match L.decodeCommand p with
  | .error (.literalFound _ _ mode) => LiteralAnswer os mode
  | _ => []

/-- The continuation request that accepts a literal. -/
def acceptMessage (os : ServerOptions) : ServerMessage := .response none (.continuationRequest os.literalAcceptCcr)

theorem takeWhile_line (l : Bytes) : [Fragment.line l].takeWhile (Fragment.accepted os) = [.line l] := rfl

theorem CommandEncodes.answers {relaxed : Bool} {c : Command} {p : Bytes} {fs : List Fragment}
    (h : CommandEncodes L relaxed c p fs) :
    (announcements p (fs.takeWhile (Fragment.accepted os))).flatMap (answerOf L os) =
      List.replicate (syncs (fs.takeWhile (Fragment.accepted os))) (acceptMessage os) := by
  induction h with
  | last h1 h2 h3 => simp [takeWhile_line, announcements, syncs]
  | @literal p l d mode fs h1 h2 h3 h4 ih =>
    rw [List.takeWhile_cons_of_pos (by rfl)]
    by_cases hd : (Fragment.literal d mode).accepted os = true
    · rw [List.takeWhile_cons_of_pos hd]
      simp only [announcements, List.flatMap_cons, ih]
      cases mode with
      | sync => simp [answerOf, h3, LiteralAnswer, syncs, List.replicate_succ, acceptMessage]
      | nonSync => simp [answerOf, h3, LiteralAnswer, syncs]
    · rw [List.takeWhile_cons_of_neg hd]
      simp [announcements, syncs]

theorem CommandEncodes.sorted {relaxed : Bool} {c : Command} {p : Bytes} {fs : List Fragment}
    (h : CommandEncodes L relaxed c p fs) :
    (announcements p (fs.takeWhile (Fragment.accepted os))).Pairwise (fun a b => a.length < b.length) ∧
    ∀ q ∈ announcements p (fs.takeWhile (Fragment.accepted os)), p.length < q.length := by
  induction h with
  | last h1 h2 h3 => simp [takeWhile_line, announcements]
  | @literal p l d mode fs h1 h2 h3 h4 ih =>
    rw [List.takeWhile_cons_of_pos (by rfl)]
    have hl := List.length_pos_iff.mpr h1.ne_nil
    by_cases hd : (Fragment.literal d mode).accepted os = true
    · rw [List.takeWhile_cons_of_pos hd]
      simp only [announcements]
      have hgt : ∀ q ∈ announcements (p ++ l ++ d) (fs.takeWhile (Fragment.accepted os)), (p ++ l).length < q.length → p.length < q.length := by
        intro q _ h
        rw [List.length_append] at h
        omega
      have hlt : ∀ q ∈ announcements (p ++ l ++ d) (fs.takeWhile (Fragment.accepted os)), (p ++ l).length < q.length := by
        intro q hq
        have := ih.2 q hq
        rw [List.length_append] at this
        omega
      refine ⟨List.pairwise_cons.mpr ⟨hlt, ih.1⟩, ?_⟩
      intro q hq
      rcases List.mem_cons.mp hq with rfl | hq
      · rw [List.length_append]; omega
      · exact hgt q hq (hlt q hq)
    · rw [List.takeWhile_cons_of_neg hd]
      simp [announcements]

theorem Announced.lt_of_announces {ε μ : Type} {F : Framing ε μ} {p p' l' X : Bytes} (hp : Announced F p)
    (hp' : Announced F p') (hl' : IsLine l') (hX : p <+: X) (hX' : p' ++ l' <+: X) (h : p.length < (p' ++ l').length) :
    p.length ≤ p'.length := by
  rcases Nat.lt_or_ge p'.length p.length with hlt | hge
  · exfalso
    rcases hp'.compare hl' hX' hp hX (by omega) with rfl | ⟨-, e, d, -, -, h4⟩
    · omega
    · have := h4.length_le
      rw [List.length_append] at this
      omega
  · exact hge

theorem CommandEncodes.announced_mem {c : Command} {p : Bytes} {fs : List Fragment}
    (h : CommandEncodes L os.crlfRelaxed c p fs) (hp : Announced (commandFraming L os) p) {q X : Bytes} {k : Nat}
    (hX : p ++ wire (fs.takeWhile (Fragment.accepted os)) <+: X) (hq : q <+: X)
    (ha : Announces (commandFraming L os) q k) (hlt : p.length < q.length) :
    q ∈ announcements p (fs.takeWhile (Fragment.accepted os)) := by
  obtain ⟨p', l', e, rfl, hp', hl', hc', hd', hk⟩ := ha
  induction h with
  | @last p l h1 h2 h3 =>
    exfalso
    have hw : wire ([Fragment.line l].takeWhile (Fragment.accepted os)) = l := by
      simp [takeWhile_line, wire, Fragment.data]
    rw [hw] at hX
    have hge := hp.lt_of_announces hp' hl' ((List.prefix_append _ _).trans hX) hq hlt
    have h3' : (commandFraming L os).dec (p ++ l) = .ok ([], c) := h3
    rcases hp.compare h1 hX hp' ((List.prefix_append _ _).trans hq) hge with rfl | ⟨-, e', d, g1, -⟩
    · have := h1.unique_after hl' hX hq
      subst this
      rw [h3'] at hd'
      cases hd'
    · rw [h3'] at g1
      cases g1
  | @literal p l d mode fs h1 h2 h3 h4 ih =>
    have h3' : (commandFraming L os).dec (p ++ l) = .error (.literalFound c.tag d.length mode) := h3
    rw [List.takeWhile_cons_of_pos (by rfl)] at hX ⊢
    have hpl : p ++ l <+: X := by
      refine List.IsPrefix.trans ?_ hX
      rw [wire_cons]
      exact ⟨_, List.append_assoc ..⟩
    have hge := hp.lt_of_announces hp' hl' ((List.prefix_append _ _).trans hpl) hq hlt
    have hacc : ∀ k, (commandFraming L os).lit (.literalFound c.tag d.length mode) = some k →
        (Fragment.literal d mode).accepted os = true ∧ k = d.length := by
      intro k hk
      have hk : CommandDecodeError.acceptable os.maxLiteralSize (.literalFound c.tag d.length mode) = some k := hk
      rw [CommandDecodeError.acceptable] at hk
      split at hk
      · rename_i hle
        cases hk
        exact ⟨by simpa [Fragment.accepted] using hle, rfl⟩
      · cases hk
    rcases hp.compare h1 hpl hp' ((List.prefix_append _ _).trans hq) hge with rfl | ⟨-, e', d', g1, g2, g3⟩
    · have := h1.unique_after hl' hpl hq
      subst this
      rw [h3'] at hd'
      cases hd'
      rw [List.takeWhile_cons_of_pos (hacc _ hk).1]
      simp [announcements]
    · rw [h3'] at g1
      cases g1
      obtain ⟨a1, a2⟩ := hacc _ g2
      rw [List.takeWhile_cons_of_pos a1] at hX ⊢
      simp only [wire_cons, Fragment.data] at hX
      have hX' : p ++ l ++ d ++ wire (fs.takeWhile (Fragment.accepted os)) <+: X := by simpa using hX
      have hdd : p ++ l ++ d = p ++ l ++ d' := by
        refine eq_of_prefix_le (prefix_of_le ((List.prefix_append _ _).trans hX')
          (g3.trans ((List.prefix_append _ _).trans hq)) ?_) ?_
        · simp only [List.length_append]; omega
        · simp only [List.length_append]; omega
      simp only [announcements]
      refine List.mem_cons_of_mem _ (ih (.literal hp h1 h2 h3 ?_) hX' ?_)
      · rw [g2, a2]
      · have := g3.length_le
        have hl := List.length_pos_iff.mpr hl'.ne_nil
        rw [hdd]
        rw [List.length_append (as := p')]
        omega

theorem CommandEncodes.mem_announced {c : Command} {p : Bytes} {fs : List Fragment}
    (h : CommandEncodes L os.crlfRelaxed c p fs) (hp : Announced (commandFraming L os) p) {q : Bytes}
    (hq : q ∈ announcements p (fs.takeWhile (Fragment.accepted os))) :
    q <+: p ++ wire (fs.takeWhile (Fragment.accepted os)) ∧ ∃ k, Announces (commandFraming L os) q k := by
  induction h with
  | last => simp [takeWhile_line, announcements] at hq
  | @literal p l d mode fs h1 h2 h3 h4 ih =>
    rw [List.takeWhile_cons_of_pos (by rfl)] at hq ⊢
    by_cases hd : (Fragment.literal d mode).accepted os = true
    · rw [List.takeWhile_cons_of_pos hd] at hq ⊢
      simp only [announcements, List.mem_cons] at hq
      have hlit : (commandFraming L os).lit (.literalFound c.tag d.length mode) = some d.length := by
        show CommandDecodeError.acceptable os.maxLiteralSize (.literalFound c.tag d.length mode) = some d.length
        rw [CommandDecodeError.acceptable, if_pos (by simpa [Fragment.accepted] using hd)]
      have hw : p ++ wire (.line l :: .literal d mode :: fs.takeWhile (Fragment.accepted os)) =
          p ++ l ++ d ++ wire (fs.takeWhile (Fragment.accepted os)) := by
        simp [wire, Fragment.data]
      rw [hw]
      rcases hq with rfl | hq
      · exact ⟨by rw [List.append_assoc]; exact List.prefix_append .., _, p, l, _, rfl, hp, h1, h2, h3, hlit⟩
      · exact ih (.literal hp h1 h2 h3 hlit) hq
    · rw [List.takeWhile_cons_of_neg hd] at hq
      simp [announcements] at hq

theorem Command.allAnnouncements {c : Command} (h : c.RoundTrip L os) :
    AllAnnouncements (commandFraming L os) (wire (c.transmitted L os)) (announcements [] (c.transmitted L os)) := by
  refine ⟨(CommandEncodes.sorted h).1, ?_⟩
  intro q
  constructor
  · intro hq
    have := CommandEncodes.mem_announced h .nil hq
    have h1 := this.1
    rw [List.nil_append] at h1
    exact ⟨h1, this.2⟩
  · rintro ⟨h1, k, h2⟩
    refine CommandEncodes.announced_mem h .nil (X := wire (c.transmitted L os)) (by
      simp only [List.nil_append]; exact List.prefix_refl _) h1 h2 ?_
    obtain ⟨p, l, e, rfl, -, hl, -⟩ := h2
    have := List.length_pos_iff.mpr hl.ne_nil
    simp only [List.length_nil, List.length_append]
    omega

/-! ## What the server reads -/

theorem takeWhile_split {α : Type} (p : α → Bool) (l : List α) :
    (l.takeWhile p = l ∧ l.all p = true) ∨
    (l.all p = false ∧ ∃ a r, l = l.takeWhile p ++ a :: r ∧ p a = false) := by
  induction l with
  | nil => exact .inl ⟨rfl, rfl⟩
  | cons x l ih =>
    cases hx : p x with
    | true =>
      rw [List.takeWhile_cons_of_pos hx, List.all_cons, hx, Bool.true_and]
      rcases ih with ⟨h1, h2⟩ | ⟨h1, a, r, h2, h3⟩
      · exact .inl ⟨by rw [h1], h2⟩
      · exact .inr ⟨h1, a, r, by rw [List.cons_append, ← h2], h3⟩
    | false =>
      rw [List.takeWhile_cons_of_neg (by simp [hx]), List.all_cons, hx, Bool.false_and]
      exact .inr ⟨rfl, x, l, rfl, hx⟩

/-- The structure of a command for the server. -/
theorem Command.transmitted_cases {c : Command}
    (hs : ∀ d, .literal d .nonSync ∈ L.encodeCommand c → d.length ≤ os.maxLiteralSize) :
    (c.accepted L os = true ∧ c.transmitted L os = L.encodeCommand c) ∨
    (c.accepted L os = false ∧ ∃ d post, L.encodeCommand c = c.transmitted L os ++ .literal d .sync :: post ∧
      os.maxLiteralSize < d.length) := by
  rcases takeWhile_split (Fragment.accepted os) (L.encodeCommand c) with ⟨h1, h2⟩ | ⟨h1, a, r, h2, h3⟩
  · exact .inl ⟨h2, h1⟩
  · refine .inr ⟨h1, ?_⟩
    cases a with
    | line l => cases h3
    | literal d mode =>
      have hlt : os.maxLiteralSize < d.length := by simpa [Fragment.accepted] using h3
      cases mode with
      | sync => exact ⟨d, r, h2, hlt⟩
      | nonSync =>
        have := hs d (by rw [h2]; simp)
        omega

theorem CommandEncodes.undecodable {c : Command} {p : Bytes} {fs : List Fragment}
    (h : CommandEncodes L os.crlfRelaxed c p fs) (hp : Announced (commandFraming L os) p) {d : Bytes}
    {mode : LiteralMode} {post : List Fragment} (hs : fs = fs.takeWhile (Fragment.accepted os) ++ .literal d mode :: post)
    (hd : os.maxLiteralSize < d.length) :
    IsUndecodable (commandFraming L os) (p ++ wire (fs.takeWhile (Fragment.accepted os)))
      (.literalFound c.tag d.length mode) := by
  induction h with
  | last => simp [takeWhile_line] at hs
  | @literal p l d0 m0 fs h1 h2 h3 h4 ih =>
    rw [List.takeWhile_cons_of_pos (by rfl)] at hs ⊢
    by_cases hd0 : (Fragment.literal d0 m0).accepted os = true
    · rw [List.takeWhile_cons_of_pos hd0] at hs ⊢
      simp only [List.cons_append, List.cons.injEq, true_and] at hs
      have hlit : (commandFraming L os).lit (.literalFound c.tag d0.length m0) = some d0.length := by
        show CommandDecodeError.acceptable os.maxLiteralSize (.literalFound c.tag d0.length m0) = some d0.length
        rw [CommandDecodeError.acceptable, if_pos (by simpa [Fragment.accepted] using hd0)]
      have hw : p ++ wire (.line l :: .literal d0 m0 :: fs.takeWhile (Fragment.accepted os)) =
          p ++ l ++ d0 ++ wire (fs.takeWhile (Fragment.accepted os)) := by
        simp [wire, Fragment.data]
      rw [hw]
      exact ih (.literal hp h1 h2 h3 hlit) hs
    · rw [List.takeWhile_cons_of_neg hd0] at hs ⊢
      simp only [List.cons_append, List.nil_append, List.cons.injEq, true_and, Fragment.literal.injEq] at hs
      obtain ⟨⟨rfl, rfl⟩, rfl⟩ := hs
      have hw : wire [.line l] = l := by simp [wire, Fragment.data]
      rw [hw]
      refine ⟨p, l, rfl, hp, h1, h2, h3, ?_⟩
      show CommandDecodeError.acceptable os.maxLiteralSize (.literalFound c.tag d0.length m0) = none
      rw [CommandDecodeError.acceptable, if_neg (by omega)]

theorem Command.serverRead_taken {c : Command}
    (hs : ∀ d, .literal d .nonSync ∈ L.encodeCommand c → d.length ≤ os.maxLiteralSize) :
    (c.serverRead L os).taken = wire (c.transmitted L os) := by
  unfold Command.serverRead
  rcases c.transmitted_cases hs with ⟨h1, h2⟩ | ⟨h1, -⟩
  · rw [if_pos h1, h2]; rfl
  · rw [if_neg (by simp [h1])]; rfl

theorem MixedCommands.plainRead {E : List (RawHandle × Command)} (h : MixedCommands L os E) :
    ∀ x ∈ E, PlainRead L os (x.2.serverRead L os) := by
  intro x hx
  have hrt := h.roundTrip x hx
  have hsz := h.size x hx
  unfold Command.serverRead
  rcases x.2.transmitted_cases (h.sync x hx) with ⟨h1, h2⟩ | ⟨h1, d, post, h2, h3⟩
  · rw [if_pos h1]
    rw [h2] at hsz
    refine .inl ⟨_, _, rfl, h.regular x hx, ?_, hsz⟩
    refine CommandEncodes.message hrt .nil ?_
    intro d mode hm
    have := List.all_eq_true.mp h1 _ hm
    simpa [Fragment.accepted] using this
  · rw [if_neg (by simp [h1])]
    have hu := CommandEncodes.undecodable hrt .nil h2 h3
    rw [List.nil_append] at hu
    exact .inr ⟨_, _, rfl, hsz, _, _, _, hu, h3, rfl⟩

/-! ## Messages generated by the server itself -/

/-- All answers of the server to a command. -/
def Command.answers (L : Lib) (os : ServerOptions) (c : Command) : List ServerMessage :=
  List.replicate (syncs (c.transmitted L os)) (acceptMessage os) ++ (c.serverRead L os).enqueues

theorem LiteralAnswer.own (mode : LiteralMode) : (LiteralAnswer os mode).filter ServerMessage.own = LiteralAnswer os mode := by
  cases mode <;> rfl

theorem rejectReply_own (tag : Tag) (mode : LiteralMode) :
    (rejectReply os tag mode).filter ServerMessage.own = rejectReply os tag mode := by
  cases mode with
  | nonSync => rfl
  | sync =>
    unfold rejectReply
    cases os.literalRejectText <;> rfl

theorem Command.serverRead_own (c : Command) :
    (c.serverRead L os).enqueues.filter ServerMessage.own = (c.serverRead L os).enqueues := by
  unfold Command.serverRead
  split
  · rfl
  · exact rejectReply_own c.tag .sync

variable {g : HandleGenerator} {gr : Greeting} {ops : List ServerOp} {s : Server} {T1 T2 : List SItem}

/-- All messages that the server generated itself, if it reads the given commands. -/
theorem Server.own_messages (hO : ServerOptions.Built L os) (h : (Server.new g os gr).trace L ops = .ok (s, T1 ++ T2))
    {cs : List Command} (hcs : ∀ c ∈ cs, c.RoundTrip L os ∧
      ∀ d, .literal d .nonSync ∈ L.encodeCommand c → d.length ≤ os.maxLiteralSize)
    (hr : T1.filter SItem.reads = cs.map (Command.serverRead L os))
    (hph : ∀ A B, T1 = A ++ B → serverPhase A = .command) :
    (serverMessages gr T1).filter ServerMessage.own =
      cs.flatMap (Command.answers L os) ++ (serverLiterals T1).flatMap (answerOf L os) := by
  induction T1 using snocInduction generalizing T2 cs with
  | nil =>
    have : cs = [] := by simpa using hr.symm
    subst this
    rfl
  | snoc T i ih =>
    have h' : (Server.new g os gr).trace L ops = .ok (s, T ++ (i :: T2)) := by simpa using h
    have hph' : ∀ A B, T = A ++ B → serverPhase A = .command := fun A B hT =>
      hph A (B ++ [i]) (by rw [hT, List.append_assoc])
    rw [serverMessages_append, List.filter_append, Server.serverLiterals_snoc]
    rw [List.filter_append] at hr
    have quiet : i.reads = false → (i.enqueues.filter ServerMessage.own) = [] → (∀ p rs, i ≠ .literal p rs) →
        (serverMessages gr T).filter ServerMessage.own ++ ([i].flatMap SItem.enqueues).filter ServerMessage.own =
          cs.flatMap (Command.answers L os) ++ (serverLiterals T).flatMap (answerOf L os) := by
      intro h1 h2 h3
      simp only [List.filter_cons, h1, List.filter_nil, List.append_nil, Bool.false_eq_true, if_false] at hr
      rw [ih h' hcs hr hph']
      simp [h2]
    have read : ∀ rs, i.reads = true → i.enqueues = rs →
        AllAnnouncements (commandFraming L os) i.taken (serverLiterals T) →
        (serverMessages gr T).filter ServerMessage.own ++ ([i].flatMap SItem.enqueues).filter ServerMessage.own =
          cs.flatMap (Command.answers L os) := by
      intro rs h1 h2 h3
      simp only [List.filter_cons, h1, List.filter_nil, if_true] at hr
      rcases List.eq_nil_or_concat cs with rfl | ⟨cs', c, hcc⟩
      · simp at hr
      · rw [List.concat_eq_append] at hcc
        subst hcc
        rw [List.map_append] at hr
        obtain ⟨hr1, hr2⟩ := List.append_inj' hr rfl
        have hr2 : i = c.serverRead L os := by simpa using hr2
        rw [ih h' (fun c hc => hcs c (by simp [hc])) hr1 hph']
        obtain ⟨hc1, hc2⟩ := hcs c (by simp)
        rw [hr2, Command.serverRead_taken hc2] at h3
        rw [h3.unique (Command.allAnnouncements hc1), hr2]
        have := CommandEncodes.answers (os := os) hc1
        have hans : (announcements [] (c.transmitted L os)).flatMap (answerOf L os) =
          List.replicate (syncs (c.transmitted L os)) (acceptMessage os) := this
        simp [hans, Command.answers, Command.serverRead_own]
    cases i with
    | literal p rs =>
      obtain ⟨-, -, -, tag, k, mode, -, h3, -, h5⟩ := C21_server_literal hO h'
      simp only [List.filter_cons, SItem.reads, List.filter_nil, List.append_nil, Bool.false_eq_true, if_false] at hr
      rw [ih h' hcs hr hph']
      have : answerOf L os p = rs := by rw [answerOf, h3, h5]
      rw [List.flatMap_append, List.append_assoc]
      simp [SItem.enqueues, this, h5, LiteralAnswer.own]
    | received w e =>
      rw [List.flatMap_nil, List.append_nil]
      exact read _ rfl rfl (C21_server_literals_of_command h' rfl (hph' T [] (by simp)))
    | failed e rs =>
      rw [List.flatMap_nil, List.append_nil]
      exact read _ rfl rfl (C21_server_literals_of_command h' rfl (hph' T [] (by simp)))
    | authContinue q r => exact quiet rfl (by cases r <;> rfl) (by simp)
    | authFinish st r => exact quiet rfl (by cases r <;> rfl) (by simp)
    | idleAccept q r => exact quiet rfl (by cases r <;> rfl) (by simp)
    | idleReject st r => exact quiet rfl (by cases r <;> rfl) (by simp)
    | _ => exact quiet rfl rfl (by simp)

end ImapFlow
