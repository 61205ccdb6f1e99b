import Verif.Proofs.ServerView

/-!
# What the server reads is determined by the input
-/

namespace ImapFlow

theorem serverOutputs_append (T U : List SItem) : serverOutputs (T ++ U) = serverOutputs T ++ serverOutputs U := by
  simp [serverOutputs]

theorem ServerView.of_outputs (g : Greeting) (T : List SItem) : (of g T).outputs = serverOutputs T := by
  induction T using snocInduction with
  | nil => rfl
  | snoc T i ih =>
    rw [of_snoc, serverOutputs_append, ← ih]
    cases i with
    | authContinue q r => cases r <;> simp [observe, serverOutputs]
    | authFinish q r => cases r <;> simp [observe, serverOutputs]
    | idleAccept q r => cases r <;> simp [observe, serverOutputs]
    | idleReject q r => cases r <;> simp [observe, serverOutputs]
    | _ => simp [observe, serverOutputs]

theorem ServerView.of_messages (g : Greeting) (T : List SItem) : (of g T).messages = serverMessages g T :=
  (of_fields g T).2.2.1

theorem IsUnit.complete {ε μ : Type} {F : Framing ε μ} {w : Bytes} (h : IsUnit F w) : Complete F w := by
  rcases h with ⟨m, h⟩ | ⟨e, h⟩ | h
  · exact h.complete
  · exact h.complete
  · exact h.complete

theorem ServerPhase.IsUnit.complete {L : Lib} {o : ServerOptions} {p : ServerPhase} {w : Bytes}
    (h : p.IsUnit L o w) : p.Complete L o w := by
  cases p with
  | command => exact ImapFlow.IsUnit.complete h
  | authenticate => exact ImapFlow.IsUnit.complete h
  | idlePending => exact h
  | idle => exact ImapFlow.IsUnit.complete h

theorem ServerPhase.Complete.not_unfinished {L : Lib} {o : ServerOptions} {p : ServerPhase} {w X : Bytes}
    (h : p.Complete L o w) (hw : w <+: X)
    (hu : p.Unfinished L o X) : False := by
  cases p with
  | command => exact ImapFlow.Complete.not_unfinished h hw hu
  | authenticate => exact ImapFlow.Complete.not_unfinished h hw hu
  | idlePending => exact h
  | idle => exact ImapFlow.Complete.not_unfinished h hw hu

theorem Discarded.tooLong {L : Lib} {o : ServerOptions} {p : ServerPhase} {w : Bytes}
    {rs : List ServerMessage} (h : Discarded L o p (.commandTooLong w) rs) :
    w.length = o.maxCommandSize ∧ rs = [] ∧ p.Unfinished L o w := by
  cases p with
  | command => exact ⟨h.2.2, h.1, h.2.1⟩
  | authenticate => exact ⟨h.2.2, h.1, h.2.1⟩
  | idlePending => exact h.elim
  | idle => exact ⟨h.2.2, h.1, h.2.1⟩

namespace Server

variable {L : Lib} {g : HandleGenerator} {o : ServerOptions} {gr : Greeting} {ops : List ServerOp}
  {s : Server} {T T1 T2 : List SItem} {i : SItem} {v : ServerView}

/-- A unit within the size limit at the start of the unread input is what is read next. -/
theorem reads_unit (h : (Server.new g o gr).trace L ops = .ok (s, T1 ++ i :: T2)) {w : Bytes}
    (hw : w <+: serverUnread T1) (hc : (serverPhase T1).Complete L o w) (hm : w.length ≤ o.maxCommandSize)
    (hi : i.reads = true) : i.taken = w ∧ ∀ w' rs, i ≠ .failed (.commandTooLong w') rs := by
  obtain ⟨s1, hinv⟩ := Server.prefix_inv h
  have hg := Server.trace_guard h
  have hp := taken_prefix hinv hg
  have hph := ServerView.of_phase gr T1
  cases i with
  | received w' e =>
    obtain ⟨-, -, -, ht, -⟩ := hg
    rw [hph] at ht
    exact ⟨ht.complete.unique hc hp hw, by simp⟩
  | failed e rs =>
    obtain ⟨-, -, hd, -⟩ := hg
    rw [hph] at hd
    by_cases hx : ∃ w', e = .commandTooLong w'
    · obtain ⟨w', rfl⟩ := hx
      obtain ⟨h1, -, h2⟩ := hd.tooLong
      have hww : w <+: w' := prefix_of_le hw hp (by show w.length ≤ w'.length; omega)
      exact (hc.not_unfinished hww h2).elim
    · refine ⟨(hd.complete fun w' hw' => hx ⟨w', hw'⟩).unique hc hp hw, ?_⟩
      rintro w' rs' h
      cases h
      exact hx ⟨_, rfl⟩
  | _ => cases hi

/-- A unit beyond the size limit is not read; the limit is reported. -/
theorem reads_too_long (h : (Server.new g o gr).trace L ops = .ok (s, T1 ++ i :: T2)) {w : Bytes}
    (hw : w <+: serverUnread T1) (hc : (serverPhase T1).Complete L o w) (hm : o.maxCommandSize < w.length)
    (hi : i.reads = true) :
    i = .failed (.commandTooLong ((serverUnread T1).take o.maxCommandSize)) [] := by
  obtain ⟨s1, hinv⟩ := Server.prefix_inv h
  have hg := Server.trace_guard h
  have hp := taken_prefix hinv hg
  have hph := ServerView.of_phase gr T1
  cases i with
  | received w' e =>
    obtain ⟨-, -, hl, ht, -⟩ := hg
    rw [hph] at ht
    have he : w' = w := ht.complete.unique hc hp hw
    rw [he] at hl
    omega
  | failed e rs =>
    obtain ⟨-, -, hd, -⟩ := hg
    rw [hph] at hd
    by_cases hx : ∃ w', e = .commandTooLong w'
    · obtain ⟨w', rfl⟩ := hx
      obtain ⟨h1, h2, -⟩ := hd.tooLong
      have : w' = (serverUnread T1).take o.maxCommandSize := by
        rw [← h1]
        exact List.prefix_iff_eq_take.mp hp
      rw [this, h2]
    · have he := (hd.complete fun w' hw' => hx ⟨w', hw'⟩).unique hc hp hw
      have hl := hd.length_le
      rw [he] at hl
      omega
  | _ => cases hi

/-! ## Unread input without reads -/

theorem unread_append (h : (Server.new g o gr).trace L ops = .ok (s, T1 ++ T ++ T2))
    (hn : ∀ i ∈ T, i.reads = false) : serverUnread (T1 ++ T) = serverUnread T1 ++ serverGiven T := by
  obtain ⟨s1, h1⟩ := Server.prefix_inv (T1 := T1) (T2 := T ++ T2) (by rw [← List.append_assoc]; exact h)
  obtain ⟨s2, h2⟩ := Server.prefix_inv h
  have e1 := given_eq h1
  have e2 := given_eq h2
  have hz : serverTaken T = [] := by
    unfold serverTaken
    rw [List.flatMap_eq_nil_iff]
    intro i hi
    have := hn i hi
    cases i <;> first | rfl | cases this
  rw [serverGiven_append, serverTaken_append, hz, List.append_nil, e1, List.append_assoc] at e2
  exact (List.append_cancel_left e2).symm

/-- The phase changes only with reads and requests of the user in their phase. -/
theorem phase_command (h : (Server.new g o gr).trace L ops = .ok (s, T1 ++ T ++ T2))
    (hn : ∀ i ∈ T, i.reads = false) (hp : serverPhase T1 = .command) : serverPhase (T1 ++ T) = .command := by
  induction T using snocInduction generalizing T2 with
  | nil => simpa using hp
  | snoc T i ih =>
    have h' : (Server.new g o gr).trace L ops = .ok (s, T1 ++ T ++ (i :: T2)) := by simpa using h
    have hc := ih h' (fun j hj => hn j (by simp [hj]))
    have hg := Server.trace_guard h'
    rw [← List.append_assoc, serverPhase_snoc, hc]
    have hq : (ServerView.of gr (T1 ++ T)).phase = .command := by rw [ServerView.of_phase, hc]
    have hi := hn i (by simp)
    cases i with
    | authFinish st r =>
      cases r with
      | error _ => rfl
      | ok _ => rfl
    | idleAccept st r =>
      cases r with
      | error _ => rfl
      | ok _ =>
        rcases hg with ⟨h1, -⟩ | ⟨-, h1⟩
        · rw [hq] at h1; cases h1
        · cases h1
    | idleReject st r =>
      cases r with
      | error _ => rfl
      | ok _ => rfl
    | received w e => cases hi
    | _ => rfl

/-! ## Literals -/

theorem serverLiterals_snoc (T : List SItem) (i : SItem) : serverLiterals (T ++ [i]) =
    match i with
    | .literal p _ => serverLiterals T ++ [p]
    | .received .. | .failed .. => []
    | _ => serverLiterals T := by
  unfold serverLiterals
  rw [List.foldl_append]
  rfl

theorem Inv.literals_nil (h : s.Inv L o v) (hp : v.phase ≠ .command) : v.literals = [] := by
  obtain ⟨so, hg, snd, rcv⟩ := s
  obtain ⟨-, -, h⟩ := h
  cases rcv with
  | dummy => exact h.elim
  | command st => exact (hp h.1).elim
  | authenticateData st => exact h.2.2
  | idleAccept st => exact h.2.2.2.2
  | idleDone st => exact h.2.2

theorem of_literals (h : (Server.new g o gr).trace L ops = .ok (s, T1 ++ T2)) :
    (ServerView.of gr T1).literals = serverLiterals T1 := by
  induction T1 using snocInduction generalizing T2 with
  | nil => rfl
  | snoc T i ih =>
    have h' : (Server.new g o gr).trace L ops = .ok (s, T ++ (i :: T2)) := by simpa using h
    have hl := ih h'
    obtain ⟨s1, hinv⟩ := Server.prefix_inv h'
    have hg := Server.trace_guard h'
    rw [ServerView.of_snoc, serverLiterals_snoc]
    cases i with
    | authContinue q r => cases r <;> exact hl
    | authFinish q r =>
      cases r with
      | error _ => exact hl
      | ok _ =>
        rcases hg with ⟨h1, -⟩ | ⟨-, h1⟩
        · rw [← hl, hinv.literals_nil (by rw [h1]; simp)]; rfl
        · cases h1
    | idleAccept q r =>
      cases r with
      | error _ => exact hl
      | ok _ =>
        rcases hg with ⟨h1, -⟩ | ⟨-, h1⟩
        · rw [← hl, hinv.literals_nil (by rw [h1]; simp)]; rfl
        · cases h1
    | idleReject q r =>
      cases r with
      | error _ => exact hl
      | ok _ =>
        rcases hg with ⟨h1, -⟩ | ⟨-, h1⟩
        · rw [← hl, hinv.literals_nil (by rw [h1]; simp)]; rfl
        · cases h1
    | literal p rs => rw [← hl]; rfl
    | _ => first | exact hl | rfl

/-! ## Sent events -/

theorem of_sent (h : (Server.new g o gr).trace L ops = .ok (s, T1 ++ T2)) :
    serverSent T1 =
      ((serverMessages gr T1).take (ServerView.of gr T1).finished).filterMap ServerMessage.event := by
  induction T1 using snocInduction generalizing T2 with
  | nil => rfl
  | snoc T i ih =>
    have h' : (Server.new g o gr).trace L ops = .ok (s, T ++ (i :: T2)) := by simpa using h
    have hl := ih h'
    obtain ⟨s1, hinv⟩ := Server.prefix_inv h'
    have hg := Server.trace_guard h'
    have hle : (ServerView.of gr T).finished ≤ (serverMessages gr T).length := by
      obtain ⟨-, ⟨-, hb, -, hd⟩, -⟩ := hinv
      rw [ServerView.of_messages] at hb
      cases hc : s1.sendState.currentMessage with
      | none => rw [hc] at hd; simp only at hd; omega
      | some m => rw [hc] at hd; have := hd.1; omega
    have same : (ServerView.of gr (T ++ [i])).finished = (ServerView.of gr T).finished → i.sent? = none →
        serverSent (T ++ [i]) = ((serverMessages gr (T ++ [i])).take
          (ServerView.of gr (T ++ [i])).finished).filterMap ServerMessage.event := by
      intro h1 h2
      rw [h1, serverSent_append, serverMessages_append, List.take_append_of_le_length hle, ← hl]
      simp [serverSent, h2]
    cases i with
    | authContinue q r => cases r <;> exact same (by rw [ServerView.of_snoc]; rfl) rfl
    | authFinish q r => cases r <;> exact same (by rw [ServerView.of_snoc]; rfl) rfl
    | idleAccept q r => cases r <;> exact same (by rw [ServerView.of_snoc]; rfl) rfl
    | idleReject q r => cases r <;> exact same (by rw [ServerView.of_snoc]; rfl) rfl
    | sent e =>
      obtain ⟨-, m, hm, he⟩ := hg
      have hf : (ServerView.of gr (T ++ [SItem.sent e])).finished = (ServerView.of gr T).finished + 1 := by
        rw [ServerView.of_snoc]; rfl
      have hmm : serverMessages gr (T ++ [SItem.sent e]) = serverMessages gr T := by
        rw [serverMessages_append]; simp [SItem.enqueues]
      rw [ServerView.of_messages] at hm
      rw [hf, hmm, List.take_add_one, hm, serverSent_append, hl]
      simp [serverSent, SItem.sent?, he]
    | quiet =>
      obtain ⟨-, m, hm, he⟩ := hg
      have hf : (ServerView.of gr (T ++ [SItem.quiet])).finished = (ServerView.of gr T).finished + 1 := by
        rw [ServerView.of_snoc]; rfl
      have hmm : serverMessages gr (T ++ [SItem.quiet]) = serverMessages gr T := by
        rw [serverMessages_append]; simp [SItem.enqueues]
      rw [ServerView.of_messages] at hm
      rw [hf, hmm, List.take_add_one, hm, serverSent_append, hl]
      simp [serverSent, SItem.sent?, he]
    | _ => exact same (by rw [ServerView.of_snoc]; rfl) rfl

end Server

end ImapFlow
