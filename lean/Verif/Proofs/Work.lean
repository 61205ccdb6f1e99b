import Verif.Spec.Work
import Verif.Proofs.ServerView
import Verif.Proofs.Net

/-!
# How often and on what the decoder is called
-/

namespace ImapFlow

variable {L : Lib} {g : HandleGenerator} {o : ServerOptions} {gr : Greeting} {ops : List ServerOp}
  {s : Server} {T T1 T2 : List SItem} {i : SItem} {v : ServerView}

theorem attempts_snoc (T : List SItem) (i : SItem) : attempts (T ++ [i]) = attempts T ++ i.attempt?.toList := by
  simp only [attempts, List.filterMap_append]
  congr 1

theorem count_take_mono {X : Bytes} {m n : Nat} (h : m ≤ n) : (X.take m).count LF ≤ (X.take n).count LF := by
  have : X.take m = (X.take n).take m := by rw [List.take_take, Nat.min_eq_left h]
  rw [this]
  exact (List.take_sublist _ _).count_le _

/-- A line that ends later has one more line end before it. -/
theorem count_take_line {c w x rest X : Bytes} {f : Nat} (hX : X = c ++ w ++ rest) (hw : w = x ++ [LF])
    (hf : f < c.length + w.length) : (X.take f).count LF + 1 ≤ (X.take (c.length + w.length)).count LF := by
  have h1 : X.take (c.length + w.length) = c ++ x ++ [LF] := by
    rw [hX, List.take_append_of_le_length (by simp), List.take_of_length_le (by simp), hw]; simp
  have h2 : X.take f = (c ++ x).take f := by
    rw [hw, List.length_append, List.length_singleton] at hf
    rw [hX, hw]
    have : c ++ (x ++ [LF]) ++ rest = (c ++ x) ++ ([LF] ++ rest) := by simp
    rw [this, List.take_append_of_le_length (by simp; omega)]
  rw [h1, h2, List.count_append]
  have := (List.take_sublist f (c ++ x)).count_le LF
  simp only [List.count_singleton, beq_self_eq_true, if_true]
  omega

theorem ends_of_line {w p l : Bytes} (hw : w = p ++ l) (hl : IsLine l) : ∃ x, w = x ++ [LF] := by
  obtain ⟨b, rfl, -⟩ := hl
  exact ⟨p ++ b, by rw [hw]; simp⟩

/-- Up to where the observer has seen attempts. -/
structure Frontier (T : List SItem) (v : ServerView) (f : Nat) : Prop where
  count : (attempts T).length ≤ (v.given.take f).count LF
  le : f ≤ v.given.length
  at_ : f = v.consumed.length ∨ ∃ q ∈ v.literals, f = v.consumed.length + q.length

theorem Server.Inv.no_literals (h : s.Inv L o v) (hp : v.phase ≠ .command) : v.literals = [] := by
  obtain ⟨so, hg, snd, rcv⟩ := s
  obtain ⟨-, -, h⟩ := h
  cases rcv with
  | dummy => exact h.elim
  | command st => exact absurd h.1 hp
  | authenticateData st => exact h.2.2
  | idleAccept st => exact h.2.2.2.2
  | idleDone st => exact h.2.2

theorem Frontier.le_of_literals {f n : Nat} (h : Frontier T v f) (hn : ∀ q ∈ v.literals, q.length ≤ n) :
    f ≤ v.consumed.length + n := by
  rcases h.at_ with e | ⟨q, hq, e⟩
  · omega
  · have := hn q hq
    omega

theorem Frontier.lt_of_literals {f n : Nat} (h : Frontier T v f) (hn : ∀ q ∈ v.literals, q.length < n)
    (h0 : 0 < n) : f < v.consumed.length + n := by
  rcases h.at_ with e | ⟨q, hq, e⟩
  · omega
  · have := hn q hq
    omega

/-- An attempt after a line that is not the last announcement. -/
theorem Frontier.attempt {f : Nat} {w rest : Bytes} {v' : ServerView} (h : Frontier T v f)
    (hi : i.attempt? = some w) (hg : v.given = v.consumed ++ w ++ rest) (hw : ∃ x, w = x ++ [LF])
    (hlt : ∀ q ∈ v.literals, q.length < w.length) (hg' : v'.given = v.given)
    (hat : v.consumed.length + w.length = v'.consumed.length ∨
      ∃ q ∈ v'.literals, v.consumed.length + w.length = v'.consumed.length + q.length) :
    Frontier (T ++ [i]) v' (v.consumed.length + w.length) := by
  obtain ⟨x, hx⟩ := hw
  have hlen : 0 < w.length := by rw [hx]; simp
  refine ⟨?_, ?_, hat⟩
  · have h1 := count_take_line hg hx (h.lt_of_literals hlt hlen)
    have h2 := h.count
    rw [attempts_snoc, hi, hg', List.length_append]
    simp only [Option.toList_some, List.length_singleton]
    omega
  · rw [hg', hg]; simp

theorem Frontier.skip {f f' : Nat} {v' : ServerView} (h : Frontier T v f) (hi : i.attempt? = none)
    (hg : v'.given = v.given) (hf : f ≤ f') (hle : f' ≤ v.given.length)
    (hat : f' = v'.consumed.length ∨ ∃ q ∈ v'.literals, f' = v'.consumed.length + q.length) :
    Frontier (T ++ [i]) v' f' := by
  refine ⟨?_, by rw [hg]; exact hle, hat⟩
  rw [attempts_snoc, hi, hg]
  simp only [Option.toList_none, List.append_nil]
  exact Nat.le_trans h.count (count_take_mono hf)

theorem Frontier.same {f : Nat} {v' : ServerView} (h : Frontier T v f) (hi : i.attempt? = none)
    (hg : v'.given = v.given) (hc : v'.consumed = v.consumed) (hl : v'.literals = v.literals) :
    Frontier (T ++ [i]) v' f :=
  h.skip hi hg (Nat.le_refl _) h.le (by rw [hc, hl]; exact h.at_)

theorem Announces.ends {ε μ : Type} {F : Framing ε μ} {q : Bytes} {k : Nat} (h : Announces F q k) :
    ∃ x, q = x ++ [LF] := by
  obtain ⟨p, l, e, h1, -, h2, -⟩ := h
  exact ends_of_line h1 h2

/-- The announcements inside a message are shorter than it. -/
theorem AllAnnouncements.lt {ε μ : Type} {F : Framing ε μ} {w : Bytes} {ls : List Bytes}
    (h : AllAnnouncements F w ls) (hn : ∀ k, ¬ Announces F w k) : ∀ q ∈ ls, q.length < w.length := by
  intro q hq
  obtain ⟨h1, k, h2⟩ := (h.2 q).mp hq
  rcases Nat.lt_or_ge q.length w.length with hl | hl
  · exact hl
  · rw [h1.eq_of_length_le hl] at h2
    exact absurd h2 (hn k)

theorem IsMessage.not_announces {ε μ : Type} {F : Framing ε μ} {w : Bytes} {m : μ} (h : IsMessage F w m) (k : Nat) :
    ¬ Announces F w k := by
  rintro ⟨p, l, e, -, -, -, -, h2, -⟩
  obtain ⟨-, -, -, -, -, -, h1⟩ := h
  rw [h1] at h2
  cases h2

theorem IsUndecodable.not_announces {ε μ : Type} {F : Framing ε μ} {w : Bytes} {x : ε} (h : IsUndecodable F w x)
    (k : Nat) : ¬ Announces F w k := by
  rintro ⟨p, l, e, -, -, -, -, h2, h3⟩
  obtain ⟨-, -, -, -, -, -, h1, h4⟩ := h
  rw [h1] at h2
  cases h2
  rw [h4] at h3
  cases h3

/-- What a received message says about the attempts before. -/
theorem Taken.attempt {w : Bytes} {e : ServerEvent} (h : Taken L o v.phase w e) (hnil : v.phase ≠ .command → v.literals = [])
    (ha : v.phase = .command → AllAnnouncements (commandFraming L o) w v.literals) :
    (∃ x, w = x ++ [LF]) ∧ ∀ q ∈ v.literals, q.length < w.length := by
  cases hp : v.phase with
  | command =>
    rw [hp] at h
    obtain ⟨c, hm, -⟩ := h
    obtain ⟨p, l, h1, -, h2, -⟩ := id hm
    exact ⟨ends_of_line h1 h2, (ha hp).lt hm.not_announces⟩
  | authenticate =>
    rw [hp] at h
    obtain ⟨c, ⟨p, l, h1, -, h2, -⟩, -⟩ := h
    exact ⟨ends_of_line h1 h2, by rw [hnil (by rw [hp]; simp)]; simp⟩
  | idlePending => rw [hp] at h; exact h.elim
  | idle =>
    rw [hp] at h
    obtain ⟨⟨p, l, h1, -, h2, -⟩, -⟩ := h
    exact ⟨ends_of_line h1 h2, by rw [hnil (by rw [hp]; simp)]; simp⟩

/-- What an attempt that failed says about the attempts before. -/
theorem Discarded.attempt {w : Bytes} {e : ServerError} {rs : List ServerMessage} (h : Discarded L o v.phase e rs)
    (he : e = .malformedMessage w ∨ e = .literalTooLong w) (hnil : v.phase ≠ .command → v.literals = [])
    (ha : v.phase = .command → AllAnnouncements (commandFraming L o) w v.literals) :
    (∃ x, w = x ++ [LF]) ∧ (∀ q ∈ v.literals, q.length < w.length) ∧ w.length ≤ o.maxCommandSize := by
  cases hp : v.phase with
  | command =>
    rw [hp] at h
    rcases he with rfl | rfl
    · obtain ⟨-, hle, x, hu, -⟩ := h
      obtain ⟨p, l, h1, -, h2, -⟩ := id hu
      exact ⟨ends_of_line h1 h2, (ha hp).lt hu.not_announces, hle⟩
    · obtain ⟨hle, tag, k, mode, hu, -⟩ := h
      obtain ⟨p, l, h1, -, h2, -⟩ := id hu
      exact ⟨ends_of_line h1 h2, (ha hp).lt hu.not_announces, hle⟩
  | authenticate =>
    rw [hp] at h
    have hl := hnil (by rw [hp]; simp)
    rcases he with rfl | rfl
    · obtain ⟨-, ⟨x, p, l, h1, -, h2, -⟩, hle⟩ := h
      exact ⟨ends_of_line h1 h2, by rw [hl]; simp, hle⟩
    · exact h.2.elim
  | idlePending => rw [hp] at h; exact h.elim
  | idle =>
    rw [hp] at h
    have hl := hnil (by rw [hp]; simp)
    rcases he with rfl | rfl
    · obtain ⟨-, ⟨x, p, l, h1, -, h2, -⟩, hle⟩ := h
      exact ⟨ends_of_line h1 h2, by rw [hl]; simp, hle⟩
    · exact h.2.elim

theorem Frontier.failed {f : Nat} {e : ServerError} {rs : List ServerMessage} {rest : Bytes} (h : Frontier T v f)
    (hg : v.given = v.consumed ++ e.bytes ++ rest) (hd : Discarded L o v.phase e rs)
    (hnil : v.phase ≠ .command → v.literals = [])
    (ha : v.phase = .command → AllAnnouncements (commandFraming L o) e.bytes v.literals) :
    Frontier (T ++ [.failed e rs]) (v.observe (.failed e rs)) (v.consumed.length + e.bytes.length) := by
  have hat : v.consumed.length + e.bytes.length = (v.observe (.failed e rs)).consumed.length := by
    simp [ServerView.observe]
  have hle : v.consumed.length + e.bytes.length ≤ v.given.length := by rw [hg]; simp
  have hq : ∀ q ∈ v.literals, q.length ≤ e.bytes.length := by
    intro q hq
    by_cases hp : v.phase = .command
    · exact (((ha hp).2 q).mp hq).1.length_le
    · rw [hnil hp] at hq; cases hq
  cases e with
  | expectedCrlfGotLf w => exact h.skip rfl rfl (h.le_of_literals hq) hle (.inl hat)
  | commandTooLong w => exact h.skip rfl rfl (h.le_of_literals hq) hle (.inl hat)
  | malformedMessage w =>
    obtain ⟨hx, hlt, -⟩ := hd.attempt (.inl rfl) hnil ha
    exact h.attempt rfl hg hx hlt rfl (.inl hat)
  | literalTooLong w =>
    obtain ⟨hx, hlt, -⟩ := hd.attempt (.inr rfl) hnil ha
    exact h.attempt rfl hg hx hlt rfl (.inl hat)

theorem Frontier.step {f : Nat} (h : Frontier T v f) (hi : s.Inv L o v) (hg : Server.Guard L o v i) :
    ∃ f', Frontier (T ++ [i]) (v.observe i) f' := by
  have hnil := hi.no_literals
  have clear : ∀ p : ServerPhase, p ≠ .command → v.phase = p → f = v.consumed.length := by
    intro p hp e
    rcases h.at_ with e' | ⟨q, hq, -⟩
    · exact e'
    · rw [hnil (by rw [e]; exact hp)] at hq; cases hq
  cases i with
  | authContinue q r => cases r <;> exact ⟨f, h.same rfl rfl rfl rfl⟩
  | authFinish q r =>
    cases r with
    | error e => exact ⟨f, h.same rfl rfl rfl rfl⟩
    | ok x =>
      rcases hg with ⟨hp, -⟩ | ⟨-, hc⟩
      · exact ⟨f, h.skip rfl rfl (Nat.le_refl _) h.le (.inl (clear _ (by simp) hp))⟩
      · cases hc
  | idleAccept q r =>
    cases r with
    | error e => exact ⟨f, h.same rfl rfl rfl rfl⟩
    | ok x =>
      rcases hg with ⟨hp, -⟩ | ⟨-, hc⟩
      · exact ⟨f, h.skip rfl rfl (Nat.le_refl _) h.le (.inl (clear _ (by simp) hp))⟩
      · cases hc
  | idleReject q r =>
    cases r with
    | error e => exact ⟨f, h.same rfl rfl rfl rfl⟩
    | ok x =>
      rcases hg with ⟨hp, -⟩ | ⟨-, hc⟩
      · exact ⟨f, h.skip rfl rfl (Nat.le_refl _) h.le (.inl (clear _ (by simp) hp))⟩
      · cases hc
  | input b =>
    refine ⟨f, ?_, ?_, h.at_⟩
    · have h1 := h.count
      rw [attempts_snoc]
      simp only [SItem.attempt?, Option.toList_none, List.append_nil]
      show _ ≤ List.count LF ((v.given ++ b).take f)
      rw [List.take_append_of_le_length h.le]
      exact h1
    · have := h.le
      show f ≤ (v.given ++ b).length
      rw [List.length_append]
      omega
  | received w e =>
    obtain ⟨-, ⟨rest, h1⟩, -, h2, h3⟩ := hg
    obtain ⟨hx, hlt⟩ := h2.attempt hnil h3
    exact ⟨_, h.attempt rfl h1 hx hlt rfl (.inl (by simp [ServerView.observe]))⟩
  | literal p rs =>
    obtain ⟨-, ⟨rest, h1⟩, -, -, hlt, tag, k, mode, ha, -⟩ := hg
    exact ⟨_, h.attempt rfl h1 ha.ends hlt rfl (.inr ⟨p, by simp [ServerView.observe], rfl⟩)⟩
  | failed e rs =>
    obtain ⟨-, ⟨rest, h1⟩, hd, ha⟩ := hg
    exact ⟨_, h.failed h1 hd hnil ha⟩
  | _ => exact ⟨f, h.same rfl rfl rfl rfl⟩

theorem Server.trace_frontier (h : (Server.new g o gr).trace L ops = .ok (s, T1 ++ T2)) :
    ∃ f, Frontier T1 (ServerView.of gr T1) f := by
  induction T1 using snocInduction generalizing T2 with
  | nil => exact ⟨0, Nat.zero_le _, Nat.le_refl _, .inl rfl⟩
  | snoc T i ih =>
    rw [List.append_assoc, List.singleton_append] at h
    obtain ⟨f, hf⟩ := ih h
    obtain ⟨s1, hi⟩ := Server.prefix_inv h
    rw [ServerView.of_snoc]
    exact hf.step hi (Server.trace_guard h)

/-- There are at most as many attempts as line ends. -/
theorem Server.attempts_lines (h : (Server.new g o gr).trace L ops = .ok (s, T)) :
    (attempts T).length ≤ (serverGiven T).count LF := by
  obtain ⟨f, hf⟩ := Server.trace_frontier (T2 := []) (by rw [List.append_nil]; exact h)
  have h1 := hf.count
  rw [(ServerView.of_fields gr T).1] at h1
  exact Nat.le_trans h1 ((List.take_sublist _ _).count_le _)

/-- Every attempt is limited by the size of commands. -/
theorem Server.attempts_size (h : (Server.new g o gr).trace L ops = .ok (s, T)) {w : Bytes} (hw : w ∈ attempts T) :
    w.length ≤ o.maxCommandSize := by
  obtain ⟨i, hi, hat⟩ := List.mem_filterMap.mp hw
  clear hw
  obtain ⟨T1, T2, rfl⟩ := List.append_of_mem hi
  have hg := Server.trace_guard h
  obtain ⟨s1, hinv⟩ := Server.prefix_inv h
  cases i with
  | received w' e => cases hat; exact hg.2.2.1
  | literal p rs => cases hat; exact hg.2.2.1
  | failed e rs =>
    obtain ⟨-, -, hd, ha⟩ := hg
    cases e with
    | malformedMessage w' => cases hat; exact (hd.attempt (.inl rfl) hinv.no_literals ha).2.2
    | literalTooLong w' => cases hat; exact (hd.attempt (.inr rfl) hinv.no_literals ha).2.2
    | _ => cases hat
  | _ => cases hat

theorem sum_le_mul {l : List Nat} {m : Nat} (h : ∀ x ∈ l, x ≤ m) : l.sum ≤ l.length * m := by
  induction l with
  | nil => simp
  | cons a l ih =>
    have h1 := h a (by simp)
    have h2 := ih (fun x hx => h x (by simp [hx]))
    rw [List.sum_cons, List.length_cons, Nat.add_one_mul]
    omega

theorem decodedBytes_append (T U : List SItem) : decodedBytes (T ++ U) = decodedBytes T + decodedBytes U := by
  simp [decodedBytes, attempts]

theorem literalCount_append (T U : List SItem) : literalCount (T ++ U) = literalCount T + literalCount U := by
  simp [literalCount]

theorem decodedBytes_singleton (i : SItem) : decodedBytes [i] = (i.attempt?.getD []).length := by
  cases h : i.attempt? <;> simp [decodedBytes, attempts, h]

/-- Beyond what is taken, only announcements of literals cost. -/
theorem SItem.decoded_le (i : SItem) {m : Nat} (h : ∀ w, i.attempt? = some w → w.length ≤ m) :
    decodedBytes [i] ≤ i.taken.length + literalCount [i] * m := by
  rw [decodedBytes_singleton]
  cases i with
  | received w e => exact Nat.le_add_right _ _
  | literal p rs =>
    have := h p rfl
    show p.length ≤ 0 + 1 * m
    omega
  | failed e rs => cases e <;> first | exact Nat.le_add_right _ _ | exact Nat.zero_le _
  | _ => exact Nat.zero_le _

theorem decodedBytes_le {m : Nat} (h : ∀ w ∈ attempts T, w.length ≤ m) :
    decodedBytes T ≤ (serverTaken T).length + literalCount T * m := by
  induction T with
  | nil => simp [decodedBytes, attempts]
  | cons i T ih =>
    have h1 := i.decoded_le (m := m) (fun w hw => h w (List.mem_filterMap.mpr ⟨i, by simp, hw⟩))
    have h2 := ih (fun w hw => by
      obtain ⟨j, hj, e⟩ := List.mem_filterMap.mp hw
      exact h w (List.mem_filterMap.mpr ⟨j, List.mem_cons_of_mem _ hj, e⟩))
    have h3 : serverTaken (i :: T) = i.taken ++ serverTaken T := by simp [serverTaken]
    rw [← List.singleton_append, decodedBytes_append, literalCount_append, List.singleton_append, h3, List.length_append,
      Nat.add_mul]
    omega

/-! ## Announcements of literals of no bytes -/

theorem emptyLiterals_snoc (n : Nat) : emptyLiterals (n + 1) = emptyLiterals n ++ emptyLiteral := by
  induction n with
  | zero => rfl
  | succ n ih =>
    show emptyLiteral ++ emptyLiterals (n + 1) = emptyLiterals (n + 1) ++ emptyLiteral
    conv => lhs; rw [ih, ← List.append_assoc]
    rfl

theorem emptyLiterals_length (n : Nat) : (emptyLiterals n).length = 5 * n := by
  induction n with
  | zero => rfl
  | succ n ih =>
    show (emptyLiteral ++ emptyLiterals n).length = _
    rw [List.length_append, ih]
    simp only [emptyLiteral, List.length_cons, List.length_nil]
    omega

theorem emptyLiterals_parse (n : Nat) :
    Toy.parse (emptyLiterals (n + 1)) = .error (some (emptyLiteral, 0, .nonSync)) := by
  induction n with
  | zero => decide +kernel
  | succ n ih =>
    have h1 : Toy.splitLine (emptyLiterals (n + 1 + 1)) = some (emptyLiteral, emptyLiterals (n + 1)) := by
      have : emptyLiterals (n + 1 + 1) = [65, 123, 43, 13] ++ LF :: emptyLiterals (n + 1) := rfl
      rw [this, Toy.splitLine_append (by decide)]
      rfl
    have h2 : Toy.announced emptyLiteral = some (0, .nonSync) := by decide
    have h3 : emptyLiterals (n + 1) ≠ [] := by simp [emptyLiterals, emptyLiteral]
    rw [Toy.parse_eq, h1]
    simp only [h2, h3, if_false, Nat.not_lt_zero, List.drop_zero, ih]

theorem emptyLiterals_decode (n : Nat) :
    Toy.lib.decodeCommand (emptyLiterals (n + 1)) = .error (.literalFound (Toy.tagOf emptyLiteral) 0 .nonSync) := by
  show Toy.decodeCommand Toy.interpCommand (emptyLiterals (n + 1)) = _
  unfold Toy.decodeCommand
  rw [emptyLiterals_parse]

namespace EmptyLiterals

/-- The server when it has seen `n` announcements and waits for the next. -/
def state (g : HandleGenerator) (o : ServerOptions) (n : Nat) : Server :=
  ⟨o, g, ⟨[], none⟩, .command ⟨o.crlfRelaxed, some o.maxCommandSize, .line 0, 5 * n, emptyLiterals n⟩⟩

/-- The server inside `next`, after the announcement was decoded. -/
def inside (g : HandleGenerator) (o : ServerOptions) (n : Nat) : Server :=
  ⟨o, g, ⟨[], none⟩, .command ⟨o.crlfRelaxed, some o.maxCommandSize, .literal 0, 5 * n, emptyLiterals n⟩⟩

theorem inside_next {n : Nat} (hn : 5 * n < o.maxCommandSize) :
    (inside g o n).nextTrace Toy.lib = .ok (state g o n, [.starved]) := by
  have hlen := emptyLiterals_length n
  have hmin : min (5 * n) o.maxCommandSize = 5 * n := by omega
  have hne : ¬ (some (5 * n) = some o.maxCommandSize) := by simp only [Option.some.injEq]; omega
  have htake : (emptyLiterals n).take (5 * n) = emptyLiterals n := List.take_of_length_le (by omega)
  have hdrop : (emptyLiterals n).drop (5 * n) = [] := List.drop_of_length_le (by omega)
  have hfind : findCrlf [] 0 o.crlfRelaxed = .ok none := by
    cases o.crlfRelaxed <;> decide
  have hrec : (⟨o.crlfRelaxed, some o.maxCommandSize, .literal 0, 5 * n, emptyLiterals n⟩ : ReceiveState).next
      Toy.lib.decodeCommand = .ok (⟨o.crlfRelaxed, some o.maxCommandSize, .line 0, 5 * n, emptyLiterals n⟩,
        .error (.io .needMoreInput)) := by
    simp only [ReceiveState.next, ReceiveState.progressLiteral, ReceiveState.progressLine,
      ReceiveState.maxReadableBytes, hlen, hmin, htake, hdrop, hfind, hne, NextFragment.startNewLine, Nat.add_zero,
      Nat.sub_self, gt_iff_lt, Nat.lt_irrefl, if_false]
  have hpr : Server.progressReceive Toy.lib (inside g o n) = .ok (state g o n, .error (.io .needMoreInput)) := by
    simp [Server.progressReceive, hrec, inside, state]
  have hps : Server.progressSend Toy.lib (inside g o n) = (inside g o n, .ok none) := rfl
  rw [Server.nextTrace_eq, hps]
  simp only [hpr]
  rfl

theorem state_next {n : Nat} (hn : 5 * (n + 1) < o.maxCommandSize) :
    (⟨o, g, ⟨[], none⟩, .command ⟨o.crlfRelaxed, some o.maxCommandSize, .line 0, 5 * n,
      emptyLiterals (n + 1)⟩⟩ : Server).nextTrace Toy.lib =
      .ok (state g o (n + 1), [.literal (emptyLiterals (n + 1)) [], .starved]) := by
  have hlen := emptyLiterals_length (n + 1)
  have hlen' := emptyLiterals_length n
  have hmin : min (5 * (n + 1)) o.maxCommandSize = 5 * (n + 1) := by omega
  have hdrop : (emptyLiterals (n + 1)).drop (5 * n) = emptyLiteral := by
    rw [emptyLiterals_snoc, List.drop_append_of_le_length (by omega), List.drop_of_length_le (by omega)]
    rfl
  have htake : (emptyLiterals (n + 1)).take (5 * (n + 1)) = emptyLiterals (n + 1) :=
    List.take_of_length_le (by omega)
  have hfind : findCrlf emptyLiteral 0 o.crlfRelaxed = .ok (some ⟨4, false⟩) := by
    cases o.crlfRelaxed <;> decide
  have hdec := emptyLiterals_decode n
  have hrec : (⟨o.crlfRelaxed, some o.maxCommandSize, .line 0, 5 * n, emptyLiterals (n + 1)⟩ : ReceiveState).next
      Toy.lib.decodeCommand = .ok (⟨o.crlfRelaxed, some o.maxCommandSize, .line 0, 5 * (n + 1),
        emptyLiterals (n + 1)⟩, .error (.error (.decodingFailure (.literalFound (Toy.tagOf emptyLiteral) 0 .nonSync)))) := by
    have h5 : 5 * n + (4 + 1) = 5 * (n + 1) := by omega
    have hle : ¬ (5 * n > 5 * (n + 1)) := by omega
    simp only [ReceiveState.next, ReceiveState.progressLine, ReceiveState.maxReadableBytes, hlen, hmin, htake, hdrop,
      hfind, h5, hdec, if_neg hle, Bool.false_eq_true, if_false, NextFragment.startNewLine]
  have hpr : Server.progressReceive Toy.lib (⟨o, g, ⟨[], none⟩, .command ⟨o.crlfRelaxed, some o.maxCommandSize,
      .line 0, 5 * n, emptyLiterals (n + 1)⟩⟩ : Server) = .ok (inside g o (n + 1), .ok none) := by
    simp [Server.progressReceive, hrec, Server.literalFound, inside, ReceiveState.startLiteral]
  rw [Server.nextTrace_eq]
  simp only [Server.progressSend, ServerSendState.next, hpr, inside_next hn]
  simp [Server.quietItems, Server.replies, Server.seen, Server.rx, inside, htake]

theorem trace {n : Nat} (hn : 5 * n < o.maxCommandSize) :
    ∃ T, (Server.new g o gr).trace Toy.lib (emptyLiteralOps n) = .ok (state g o n, T) ∧
      attempts T = (List.range n).map (fun k => emptyLiterals (k + 1)) ∧ serverGiven T = emptyLiterals n ∧
      serverTaken T = [] := by
  induction n with
  | zero =>
    refine ⟨[.output (ServerMessage.pushToBuffer Toy.lib (.greeting gr)), .sent (.greetingSent gr)], ?_, rfl, rfl, rfl⟩
    simp only [emptyLiteralOps, Server.trace, Server.callTrace, Server.new]
    rw [Server.nextTrace_eq]
    simp only [Server.progressSend, ServerSendState.next, ServerSendState.new, ServerSendState.enqueueGreeting,
      List.nil_append]
    rw [Server.nextTrace_eq]
    simp [Server.progressSend, ServerSendState.next, state, ReceiveState.new, ReceiveState.withReadBuffer,
      NextFragment.startNewLine, emptyLiterals]
  | succ n ih =>
    obtain ⟨T, h1, h2, h3, h4⟩ := ih (by omega)
    refine ⟨T ++ [.input emptyLiteral, .literal (emptyLiterals (n + 1)) [], .starved], ?_, ?_, ?_, ?_⟩
    · rw [emptyLiteralOps, Server.trace_append, h1]
      have hin : (state g o n).enqueueInput emptyLiteral = .ok (⟨o, g, ⟨[], none⟩, .command ⟨o.crlfRelaxed,
          some o.maxCommandSize, .line 0, 5 * n, emptyLiterals (n + 1)⟩⟩ : Server) := by
        rw [emptyLiterals_snoc]; rfl
      simp [Server.trace, Server.callTrace, hin, state_next hn, Except.map]
    · rw [List.range_succ, List.map_append, ← h2]
      simp only [attempts, List.filterMap_append]
      rfl
    · rw [serverGiven_append, h3, emptyLiterals_snoc]; simp [serverGiven, SItem.given]
    · rw [serverTaken_append, h4]; simp [serverTaken, SItem.taken]

theorem work (n : Nat) :
    2 * (((List.range n).map (fun k => emptyLiterals (k + 1))).map List.length).sum = 5 * n * (n + 1) := by
  induction n with
  | zero => rfl
  | succ n ih =>
    rw [List.range_succ, List.map_append, List.map_append, List.sum_append, Nat.mul_add, ih]
    simp only [List.map_cons, List.map_nil, List.sum_cons, List.sum_nil, emptyLiterals_length]
    grind

end EmptyLiterals

end ImapFlow
