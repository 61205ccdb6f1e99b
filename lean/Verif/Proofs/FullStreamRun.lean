import Verif.Proofs.FullStreamData

/-!
# Runs of the whole stream
-/

namespace ImapFlow

variable {K σ ε ev ι : Type}

namespace FullStream

theorem run_cons {M : Machine σ ε ev ι} {a : StreamAct ι} {as : List (StreamAct ι)} {c c' : FullStream K σ}
    {T : List (FullItem ε ev ι)} (h : run M c (a :: as) = some (c', T)) :
    ∃ c1 T1 T2, c.step M a = some (c1, T1) ∧ run M c1 as = some (c', T2) ∧ T = T1 ++ T2 := by
  simp only [run] at h
  split at h
  · cases h
  · rename_i c1 T1 hs
    split at h
    · cases h
    · rename_i c2 T2 hr
      simp only [Option.some.injEq, Prod.mk.injEq] at h
      obtain ⟨rfl, rfl⟩ := h
      exact ⟨c1, T1, T2, hs, hr, rfl⟩

theorem run_append (M : Machine σ ε ev ι) (as bs : List (StreamAct ι)) (c : FullStream K σ) :
    run M c (as ++ bs) =
      match run M c as with
      | none => none
      | some (c, T) =>
        match run M c bs with
        | none => none
        | some (c, U) => some (c, T ++ U) := by
  induction as generalizing c with
  | nil => simp only [List.nil_append, run]; cases run M c bs <;> simp
  | cons a as ih =>
    simp only [List.cons_append, run]
    cases c.step M a with
    | none => rfl
    | some x =>
      simp only [ih]
      cases run M x.1 as with
      | none => rfl
      | some y =>
        simp only
        cases run M y.1 bs <;> simp

theorem run_snoc {M : Machine σ ε ev ι} {c c1 c2 : FullStream K σ} {as : List (StreamAct ι)}
    {a : StreamAct ι} {T U : List (FullItem ε ev ι)} (h : run M c as = some (c1, T))
    (hs : c1.step M a = some (c2, U)) : run M c (as ++ [a]) = some (c2, T ++ U) := by
  rw [run_append, h]
  simp [run, hs]

/-- Every item of a run belongs to a step. -/
theorem run_split {M : Machine σ ε ev ι} {as : List (StreamAct ι)} {c c' : FullStream K σ}
    {pre post : List (FullItem ε ev ι)} {x : FullItem ε ev ι}
    (h : run M c as = some (c', pre ++ x :: post)) :
    ∃ as1 a as2 c1 c2 T1 T2 q q', as = as1 ++ a :: as2 ∧ run M c as1 = some (c1, T1) ∧ step M c1 a = some (c2, q ++ x :: q') ∧
      run M c2 as2 = some (c', T2) ∧ pre = T1 ++ q ∧ post = q' ++ T2 := by
  induction as generalizing c pre with
  | nil => simp [run] at h
  | cons a as ih =>
    obtain ⟨c1, T1, T2, hs, hr, h⟩ := run_cons h
    rw [eq_comm, List.append_eq_append_iff] at h
    rcases h with ⟨q, h1, h2⟩ | ⟨q, h1, h2⟩
    · subst h1
      rw [h2] at hr
      obtain ⟨as1, b, as2, c3, c4, U1, U2, p, p', e1, e2, e3, e4, e5, e6⟩ := ih hr
      refine ⟨a :: as1, b, as2, c3, c4, T1 ++ U1, U2, p, p', by rw [e1]; rfl, ?_, e3, e4, ?_, e6⟩
      · simp [run, hs, e2]
      · rw [e5, List.append_assoc]
    · cases q with
      | nil =>
        simp only [List.append_nil, List.nil_append] at h1 h2
        subst h1
        rw [← h2] at hr
        obtain ⟨as1, b, as2, c3, c4, U1, U2, p, p', e1, e2, e3, e4, e5, e6⟩ := ih (pre := []) hr
        refine ⟨a :: as1, b, as2, c3, c4, T1 ++ U1, U2, p, p', by rw [e1]; rfl, ?_, e3, e4, ?_, e6⟩
        · simp [run, hs, e2]
        · rw [List.append_assoc, ← e5, List.append_nil]
      | cons y q =>
        simp only [List.cons_append, List.cons.injEq] at h2
        obtain ⟨rfl, h2⟩ := h2
        subst h1
        exact ⟨[], a, as, c, c1, [], T2, pre, q, rfl, rfl, hs, hr, rfl, h2⟩

/-- Nothing happens after a panic, while `decrypt` does not end, and after it has failed. -/
theorem step_stopped {M : Machine σ ε ev ι} {c : FullStream K σ} (a : StreamAct ι)
    (h : c.ctl = .at .dead ∨ c.ctl = .hung ∨ c.ctl = .broken) : c.step M a = none := by
  cases a <;> rcases h with h | h | h <;> simp [step, h]

theorem run_stopped {M : Machine σ ε ev ι} {c c' : FullStream K σ} {as : List (StreamAct ι)} {T : List (FullItem ε ev ι)}
    (h : c.ctl = .at .dead ∨ c.ctl = .hung ∨ c.ctl = .broken) (hr : run M c as = some (c', T)) : c' = c ∧ T = [] := by
  cases as with
  | nil => cases hr; exact ⟨rfl, rfl⟩
  | cons a as =>
    obtain ⟨c1, T1, T2, hs, -, -⟩ := run_cons hr
    rw [step_stopped a h] at hs
    cases hs

/-! ## Receiving -/

theorem run_recv {M : Machine σ ε ev ι} {as : List (StreamAct ι)} {c c' : FullStream K σ} {T : List (FullItem ε ev ι)}
    (h : run M c as = some (c', T)) (hc : c.ctl ≠ .hung ∧ c.ctl ≠ .broken) (hrb : c.readBuffer = [])
    (hr : Receiver c.tls) {tls1 : Option (Tls K)} {plain : Bytes}
    (hf : Feeds c.tls tls1 (streamRead (streamPart T)) plain) :
    (c'.ctl ≠ .hung ∧ c'.ctl ≠ .broken) ∧ (.hung ∉ T ∧ .broken ∉ T) ∧
      (c'.ctl ≠ .at .dead → SameRecv tls1 c'.tls ∧ c'.readBuffer = [] ∧ streamDelivered (streamPart T) = plain) := by
  induction as generalizing c T tls1 plain with
  | nil =>
    cases h
    obtain ⟨rfl, rfl⟩ := hf.nothing hr
    exact ⟨hc, by simp, fun _ => ⟨.refl _, hrb, rfl⟩⟩
  | cons a as ih =>
    obtain ⟨c1, T1, T2, hs, h2, rfl⟩ := run_cons h
    rw [streamPart_append, streamRead_append] at hf
    obtain ⟨tls2, p1, p2, f1, f2, rfl⟩ := hf.split hr
    have h3 := (step_cases hs).recv hrb hr f1
    by_cases hd : c1.ctl = .at .dead
    · obtain ⟨rfl, rfl⟩ := run_stopped (.inl hd) h2
      exact ⟨h3.ctl, by simpa using h3.items, fun h => (h hd).elim⟩
    · obtain ⟨h4, h5, h6⟩ := h3.alive hd
      obtain ⟨tls3, f3, f4⟩ := h4.feeds f2
      obtain ⟨i1, i2, i3⟩ := ih h2 h3.ctl h5 (h4.receiver (f1.receiver hr)) f3
      refine ⟨i1, ?_, fun hn => ?_⟩
      · simp only [List.mem_append, not_or]
        exact ⟨⟨h3.items.1, i2.1⟩, h3.items.2, i2.2⟩
      · obtain ⟨i4, i5, i6⟩ := i3 hn
        refine ⟨f4.trans i4, i5, ?_⟩
        rw [streamPart_append, streamDelivered_append, h6, i6]

/-- The items of a step behind the call of the state read nothing. -/
theorem step_poll_tail {M : Machine σ ε ev ι} {c1 c2 : FullStream K σ} {a : StreamAct ι} {q q' : List (FullItem ε ev ι)}
    {r : Except (Interrupt ε) ev} (h2 : c1.step M a = some (c2, q ++ .stream (.poll r) :: q')) :
    streamRead (streamPart q') = [] := by
  have hadv : ∀ {c0 c3 : FullStream K σ} {U q}, Advanced M c0 c3 U → U = q ++ .stream (.poll r) :: q' →
      streamRead (streamPart q') = [] := by
    intro c0 c3 U q hU he
    cases hU with
    | hung => rcases q with _ | ⟨_, _ | ⟨_, _⟩⟩ <;> simp at he
    | broken => rcases q with _ | ⟨_, _ | ⟨_, _⟩⟩ <;> simp at he
    | inputPanic => rcases q with _ | ⟨_, _ | ⟨_, _⟩⟩ <;> simp at he
    | nextPanic g1 g2 g3 g4 =>
      rcases g2 with ⟨-, -, rfl⟩ | ⟨-, -, rfl⟩ <;> rcases q with _ | ⟨_, _ | ⟨_, _ | ⟨_, _⟩⟩⟩ <;> simp at he
    | @returned _ _ _ _ _ _ r' g1 g2 g3 g4 g5 =>
      have hD := provides_no_poll g2
      rw [List.map_append, List.map_cons] at he
      have hnr : ∀ r, FullItem.stream (.poll r) ∉ (returns r').map (FullItem.stream (ε := ε) (ev := ev) (ι := ι)) := by
        intro r hm
        rcases r' with (io | e) | e <;> simp [returns] at hm
      have := poll_split he.symm.symm (fun r hm => hD r (by simpa using hm)) hnr
      subst this
      have he := List.append_cancel_left he
      injection he with _ he
      rw [← he, streamPart_map]
      rcases r' with (io | e) | e <;> rfl
    | waits g1 g2 g3 g4 g5 =>
      have hD := provides_no_poll g2
      rw [List.map_append] at he
      have := poll_split (rest := []) he (fun r hm => hD r (by simpa using hm)) (by simp)
      subst this
      have he := List.append_cancel_left he
      injection he with _ he
      rw [← he]; rfl
    | refused g1 g2 g3 g4 g5 =>
      have hD := provides_no_poll g2
      rw [List.map_append, List.append_assoc] at he
      have := poll_split (rest := [.refused, .stream (.returned (.error .io))]) he
        (fun r hm => hD r (by simpa using hm)) (by simp)
      subst this
      have he := List.append_cancel_left he
      injection he with _ he
      rw [← he]; rfl
  have hs := step_cases h2
  generalize hT : q ++ FullItem.stream (.poll r) :: q' = U at hs
  have key : ∀ {x U' c0 c3}, Advanced M (c0 : FullStream K σ) c3 U' →
      q ++ FullItem.stream (.poll r) :: q' = .stream x :: U' → (∀ r, x ≠ .poll r) → streamRead (streamPart q') = [] := by
    intro x U' c0 c3 hU he hx
    cases q with
    | nil =>
      injection he with he _
      injection he with he
      exact (hx r he.symm).elim
    | cons y q =>
      injection he with _ he
      exact hadv hU he.symm
  have hm : FullItem.stream (.poll r) ∈ U := by rw [← hT]; simp
  cases hs with
  | user => simp at hm
  | userPanic => simp at hm
  | callNext _ g => exact key g hT (by simp)
  | read _ _ g => exact key g hT (by simp)
  | written _ _ _ g => exact key g hT (by simp)
  | wrote g1 g2 g3 g4 => rcases g4 with ⟨-, rfl, -⟩ | ⟨-, -, rfl, -⟩ <;> simp at hm
  | flush g1 g2 g3 => rcases g3 with ⟨-, rfl, -⟩ | ⟨-, rfl, -⟩ <;> simp at hm
  | ended g1 g2 =>
    rcases g2 with ⟨-, rfl, rfl⟩ | ⟨-, rfl, rfl⟩ | ⟨-, rfl, rfl⟩ | ⟨-, rfl, rfl⟩ | ⟨-, rfl, rfl⟩ <;> simp at hm
  | dropped => simp at hm

/-! ## Sending -/

theorem secure_sender {paired : K → K → Prop} {t : Tls K} {kr : K} (hD : t.layer.Delivers paired)
    (hk : paired t.writeKey kr) (hs : t.sendable = []) : Sender paired (some t) := by
  rintro _ ⟨⟩; exact ⟨hD, hs, kr, hk⟩

theorem run_send {paired : K → K → Prop} {M : Machine σ ε ev ι} {as : List (StreamAct ι)} {c c' : FullStream K σ}
    {T : List (FullItem ε ev ι)} (h : run M c as = some (c', T)) (hs : Sender paired c.tls)
    (hw : c.ctl = .at .reading → c.writeBuffer = []) (hr : .refused ∉ T) :
    (∃ out, Sends paired c.tls c'.tls (streamOutput (streamPart T)) out ∧
      streamWrote (streamPart T) ++ c'.writeBuffer = c.writeBuffer ++ out) ∧
    Sender paired c'.tls ∧ (c'.ctl = .at .reading → c'.writeBuffer = []) := by
  induction as generalizing c T with
  | nil =>
    cases h
    exact ⟨⟨[], .refl hs, by simp [streamPart, streamWrote]⟩, hs, hw⟩
  | cons a as ih =>
    obtain ⟨c1, T1, T2, h1, h2, rfl⟩ := run_cons h
    simp only [List.mem_append, not_or] at hr
    obtain ⟨⟨o1, s1, s2⟩, s3, -⟩ := (step_cases h1).send hs hw hr.1
    obtain ⟨⟨o2, r1, r2⟩, r3, r4⟩ := ih h2 (s1.sender hs) s3 hr.2
    refine ⟨⟨o1 ++ o2, ?_, ?_⟩, r3, r4⟩
    · rw [streamPart_append, streamOutput_append]
      exact s1.trans r1
    · rw [streamPart_append, streamWrote_append, List.append_assoc, r2, ← List.append_assoc, s2, List.append_assoc]

/-- The fields of a connection that never change. -/
def SameFixed : Option (Tls K) → Option (Tls K) → Prop
  | none, none => True
  | some t, some t' => t'.layer = t.layer ∧ t'.limit = t.limit
  | _, _ => False

theorem SameFixed.refl (tls : Option (Tls K)) : SameFixed tls tls := by cases tls <;> simp [SameFixed]

theorem SameFixed.trans {t1 t2 t3 : Option (Tls K)} (h1 : SameFixed t1 t2) (h2 : SameFixed t2 t3) : SameFixed t1 t3 := by
  cases t1 <;> cases t2 <;> cases t3 <;> simp only [SameFixed] at * <;> try contradiction
  exact ⟨h2.1.trans h1.1, h2.2.trans h1.2⟩

theorem SameFixed.of_send {t1 t2 : Option (Tls K)} (h : SameSend t1 t2) : SameFixed t1 t2 := by
  cases t1 <;> cases t2 <;> simp only [SameFixed, SameSend] at * <;> try contradiction
  exact ⟨h.1, h.2.1⟩

theorem SameFixed.of_recv {t1 t2 : Option (Tls K)} (h : SameRecv t1 t2) : SameFixed t1 t2 := by
  cases t1 <;> cases t2 <;> simp only [SameFixed, SameRecv] at * <;> try contradiction
  rw [h]; exact ⟨rfl, rfl⟩

theorem Advanced.fixed {M : Machine σ ε ev ι} {c c' : FullStream K σ} {T : List (FullItem ε ev ι)} (h : Advanced M c c' T) :
    SameFixed c.tls c'.tls := by
  cases h with
  | hung _ _ h => subst h; exact .refl _
  | broken _ _ h => subst h; exact .refl _
  | inputPanic h1 _ h => subst h; exact .of_send h1.same_send
  | nextPanic h1 _ _ h => subst h; exact .of_send h1.same_send
  | returned h1 _ _ _ h => subst h; exact .of_send h1.same_send
  | waits h1 _ _ h2 h =>
    subst h
    exact (SameFixed.of_send h1.same_send).trans (.of_recv (handleOutput_same_recv h2).1)
  | refused h1 _ _ h2 h =>
    subst h
    exact (SameFixed.of_send h1.same_send).trans (.of_recv (handleOutput_same_recv h2).1)

theorem Stepped.fixed {M : Machine σ ε ev ι} {c c' : FullStream K σ} {T : List (FullItem ε ev ι)} (h : Stepped M c c' T) :
    SameFixed c.tls c'.tls := by
  cases h with
  | user _ _ h => subst h; exact .refl _
  | userPanic _ _ h => subst h; exact .refl _
  | callNext _ h => exact h.fixed
  | read _ _ h => exact h.fixed
  | written _ _ _ h => exact h.fixed
  | wrote _ _ _ h => rcases h with ⟨-, -, rfl⟩ | ⟨-, -, -, rfl⟩ <;> exact .refl _
  | flush _ h1 h =>
    have := SameFixed.of_recv (handleOutput_same_recv h1).1
    rcases h with ⟨-, -, rfl⟩ | ⟨-, -, rfl⟩ <;> exact this
  | ended h => subst h; exact .refl _
  | dropped _ h => subst h; exact .refl _

theorem Advanced.too_long {paired : K → K → Prop} {M : Machine σ ε ev ι} {c c' : FullStream K σ} {T : List (FullItem ε ev ι)}
    (h : Advanced M c c' T) :
    (Sender paired c.tls → .refused ∈ T → ∃ t b, c.tls = some t ∧ t.limit < b.length ∧
      .poll (.error (.io (.output b))) ∈ streamPart T) ∧
    (∀ t b, c.tls = some t → t.layer.Delivers paired → t.limit < b.length →
      .poll (.error (.io (.output b))) ∈ streamPart T → .refused ∈ T) := by
  have hno : ∀ {b s s1 D}, Provides M b s s1 D → ∀ r, StreamItem.poll r ∉ D := fun h r => provides_no_poll h r
  cases h with
  | hung => simp [streamPart, FullItem.stream?]
  | broken => simp [streamPart, FullItem.stream?]
  | inputPanic => simp [streamPart, FullItem.stream?]
  | nextPanic h1 h2 h3 h4 =>
    refine ⟨by simp, ?_⟩
    intro t b _ _ _ hm
    rw [streamPart_append, streamPart_map, List.mem_append] at hm
    rcases hm with hm | hm
    · exact (hno h2 _ hm).elim
    · simp [streamPart, FullItem.stream?] at hm
  | @returned _ _ _ _ _ _ r h1 h2 h3 h4 h5 =>
    refine ⟨by simp, ?_⟩
    intro t b _ _ _ hm
    rw [streamPart_map, List.mem_append] at hm
    rcases hm with hm | hm
    · exact (hno h2 _ hm).elim
    · rcases r with (io | e) | e
      · exact (h4 io rfl).elim
      · simp [returns] at hm
      · simp [returns] at hm
  | @waits _ _ _ _ _ _ io _ h1 h2 h3 h4 h5 =>
    refine ⟨by simp, ?_⟩
    intro t b ht hD hl hm
    rw [streamPart_map, List.mem_append] at hm
    rcases hm with hm | hm
    · exact (hno h2 _ hm).elim
    · simp only [List.mem_singleton, StreamItem.poll.injEq, Except.error.injEq, Interrupt.io.injEq] at hm
      subst hm
      have hf := SameFixed.of_send h1.same_send
      rw [ht] at hf
      exfalso
      unfold handleOutput at h4
      simp only at h4
      split at h4
      · exact hf.elim
      · rename_i t1
        obtain ⟨t2, he⟩ := C34_too_long (t := t1) (hf.1 ▸ hD) c.writeBuffer (plain := b) (by rw [hf.2]; exact hl)
        simp only [outputBytes, he] at h4
        cases h4
  | @refused _ _ _ _ _ _ io _ h1 h2 h3 h4 h5 =>
    refine ⟨fun hs _ => ?_, fun _ _ _ _ _ _ => by simp⟩
    obtain ⟨t1, e1, e2⟩ := handleOutput_false ((h1.same_send.sends hs).sender hs) h4
    simp only at e1
    subst e1
    have hf := SameFixed.of_send h1.same_send
    cases ht : c.tls with
    | none => rw [ht] at hf; exact hf.elim
    | some t =>
      rw [ht] at hf
      cases io with
      | needMoreInput => simp [outputBytes] at e2
      | output b =>
        refine ⟨t, b, rfl, ?_, ?_⟩
        · rw [← hf.2]; exact e2
        · rw [streamPart_append, streamPart_map]; simp

theorem Stepped.too_long {paired : K → K → Prop} {M : Machine σ ε ev ι} {c c' : FullStream K σ} {T : List (FullItem ε ev ι)}
    (h : Stepped M c c' T) :
    (Sender paired c.tls → .refused ∈ T → ∃ t b, c.tls = some t ∧ t.limit < b.length ∧
      .poll (.error (.io (.output b))) ∈ streamPart T) ∧
    (∀ t b, c.tls = some t → t.layer.Delivers paired → t.limit < b.length →
      .poll (.error (.io (.output b))) ∈ streamPart T → .refused ∈ T) := by
  cases h with
  | user => simp [streamPart, FullItem.stream?]
  | userPanic => simp [streamPart, FullItem.stream?]
  | callNext _ h => rw [streamPart_cons]; simpa using h.too_long (paired := paired)
  | read _ _ h => rw [streamPart_cons]; simpa using h.too_long (paired := paired)
  | written _ _ _ h => rw [streamPart_cons]; simpa using h.too_long (paired := paired)
  | wrote _ _ _ h => rw [streamPart_map]; rcases h with ⟨-, rfl, -⟩ | ⟨-, -, rfl, -⟩ <;> simp
  | flush _ _ h => rw [streamPart_map]; rcases h with ⟨-, rfl, -⟩ | ⟨-, rfl, -⟩ <;> simp
  | ended _ h =>
    rcases h with ⟨-, rfl, rfl⟩ | ⟨-, rfl, rfl⟩ | ⟨-, rfl, rfl⟩ | ⟨-, rfl, rfl⟩ | ⟨-, rfl, rfl⟩ <;>
      simp [streamPart, FullItem.stream?]
  | dropped => simp [streamPart, FullItem.stream?]

theorem run_too_long {paired : K → K → Prop} {M : Machine σ ε ev ι} {as : List (StreamAct ι)} {c c' : FullStream K σ}
    {t : Tls K} {T : List (FullItem ε ev ι)} (h : run M c as = some (c', T)) (ht : c.tls = some t)
    (hw : c.ctl = .at .reading → c.writeBuffer = []) (hD : t.layer.Delivers paired) :
    (Sender paired c.tls → .refused ∈ T → ∃ b, t.limit < b.length ∧ .poll (.error (.io (.output b))) ∈ streamPart T) ∧
    (∀ b, t.limit < b.length → .poll (.error (.io (.output b))) ∈ streamPart T → .refused ∈ T) := by
  induction as generalizing c T t with
  | nil => cases h; simp [streamPart]
  | cons a as ih =>
    obtain ⟨c1, T1, T2, h1, h2, rfl⟩ := run_cons h
    have hf := (step_cases h1).fixed
    have hl := (step_cases h1).too_long (paired := paired)
    cases ht1 : c1.tls with
    | none => rw [ht, ht1] at hf; exact hf.elim
    | some t1 =>
      rw [ht, ht1] at hf
      refine ⟨fun hs hm => ?_, fun b hb hm => ?_⟩
      · rw [streamPart_append]
        by_cases hm1 : .refused ∈ T1
        · obtain ⟨t', b, e1, e2, e3⟩ := hl.1 hs hm1
          rw [ht] at e1
          cases e1
          exact ⟨b, e2, List.mem_append_left _ e3⟩
        · have hm2 := (List.mem_append.1 hm).resolve_left hm1
          obtain ⟨⟨o1, s1, s2⟩, s3, -⟩ := (step_cases h1).send hs hw hm1
          obtain ⟨b, e2, e3⟩ := (ih h2 ht1 s3 (hf.1 ▸ hD)).1 (s1.sender hs) hm2
          exact ⟨b, hf.2 ▸ e2, List.mem_append_right _ e3⟩
      · rw [streamPart_append, List.mem_append] at hm
        rw [List.mem_append]
        by_cases hm1 : .refused ∈ T1
        · exact .inl hm1
        · rcases hm with hm | hm
          · exact .inl (hl.2 t b ht hD hb hm)
          · refine .inr ?_
            -- the connection at the second step is that of the first one
            have key : ∀ (as : List (StreamAct ι)) (c c' : FullStream K σ) (t : Tls K) (T : List (FullItem ε ev ι)),
                run M c as = some (c', T) → c.tls = some t → t.layer.Delivers paired → t.limit < b.length →
                .poll (.error (.io (.output b))) ∈ streamPart T → .refused ∈ T := by
              intro as
              induction as with
              | nil => intro c c' t T h _ _ _ hm; cases h; cases hm
              | cons a as ih =>
                intro c c' t T h ht hD hb hm
                obtain ⟨c1, T1, T2, h1, h2, rfl⟩ := run_cons h
                have hf := (step_cases h1).fixed
                rw [streamPart_append, List.mem_append] at hm
                rw [List.mem_append]
                rcases hm with hm | hm
                · exact .inl ((step_cases h1).too_long.2 t b ht hD hb hm)
                · cases ht1 : c1.tls with
                  | none => rw [ht, ht1] at hf; exact hf.elim
                  | some t1 =>
                    rw [ht, ht1] at hf
                    exact .inr (ih _ _ t1 _ h2 ht1 (hf.1 ▸ hD) (hf.2 ▸ hb) hm)
            exact key _ _ _ t1 _ h2 ht1 (hf.1 ▸ hD) (hf.2 ▸ hb) hm

/-! ## The state -/

theorem Advanced.replay [DecidableEq ε] [DecidableEq ev] {M : Machine σ ε ev ι} {c c' : FullStream K σ}
    {T : List (FullItem ε ev ι)} (h : Advanced M c c' T) (hc : c'.ctl ≠ .at .dead) :
    M.replay c.state (streamPart T) = some c'.state := by
  have hp : ∀ {b s s1 D}, Provides M b s s1 D → M.replay s D = some s1 := by
    rintro b s s1 D (⟨rfl, rfl, rfl⟩ | ⟨-, h1, rfl⟩)
    · rfl
    · simp [Machine.replay, h1]
  cases h with
  | hung h1 h2 h3 => subst h3; rfl
  | broken h1 h2 h3 => subst h3; rfl
  | inputPanic h1 h2 h3 => subst h3; exact (hc rfl).elim
  | nextPanic h1 h2 h3 h4 => subst h4; exact (hc rfl).elim
  | @returned _ _ _ D _ _ r h1 h2 h3 h4 h5 =>
    subst h5
    rw [streamPart_map, Machine.replay_append, hp h2]
    rcases r with (io | e) | e <;> simp [Machine.replay, h3, returns]
  | waits h1 h2 h3 h4 h5 =>
    subst h5
    rw [streamPart_map, Machine.replay_append, hp h2]
    simp [Machine.replay, h3, (handleOutput_same_recv h4).2.2.1]
  | refused h1 h2 h3 h4 h5 =>
    subst h5
    rw [streamPart_append, streamPart_map, Machine.replay_append, Machine.replay_append, hp h2]
    simp [Machine.replay, h3, (handleOutput_same_recv h4).2.2.1]
    rfl

theorem Stepped.replay [DecidableEq ε] [DecidableEq ev] {M : Machine σ ε ev ι} {c c' : FullStream K σ}
    {T : List (FullItem ε ev ι)} (h : Stepped M c c' T) (hc : c'.ctl ≠ .at .dead) :
    M.replay c.state (streamPart T) = some c'.state := by
  cases h with
  | user h1 h2 h3 => subst h3; simp [streamPart, FullItem.stream?, Machine.replay, h2]
  | userPanic h1 h2 h3 => subst h3; exact (hc rfl).elim
  | callNext h1 h2 => rw [streamPart_cons]; exact h2.replay hc
  | read h1 h2 h3 => rw [streamPart_cons]; exact h3.replay hc
  | written h1 h2 h3 h4 => rw [streamPart_cons]; exact h4.replay hc
  | wrote h1 h2 h3 h4 => rcases h4 with ⟨h4, rfl, rfl⟩ | ⟨h4, rfl, rfl, rfl⟩ <;> rfl
  | flush h1 h2 h3 =>
    have := (handleOutput_same_recv h2).2.2.1
    rcases h3 with ⟨h3, rfl, rfl⟩ | ⟨h3, rfl, rfl⟩ <;> rw [streamPart_map] <;> simp [Machine.replay, this]
  | ended h1 h2 =>
    subst h1
    rcases h2 with ⟨-, rfl, rfl⟩ | ⟨-, rfl, rfl⟩ | ⟨-, rfl, rfl⟩ | ⟨-, rfl, rfl⟩ | ⟨-, rfl, rfl⟩ <;> rfl
  | dropped h1 h2 => subst h2; rfl

theorem run_replay [DecidableEq ε] [DecidableEq ev] {M : Machine σ ε ev ι} {as : List (StreamAct ι)}
    {c c' : FullStream K σ} {T : List (FullItem ε ev ι)} (h : run M c as = some (c', T)) (hc : c'.ctl ≠ .at .dead) :
    M.replay c.state (streamPart T) = some c'.state := by
  induction as generalizing c T with
  | nil => cases h; rfl
  | cons a as ih =>
    obtain ⟨c1, T1, T2, h1, h2, rfl⟩ := run_cons h
    have hd : c1.ctl ≠ .at .dead := by
      intro hd
      obtain ⟨rfl, -⟩ := run_stopped (.inl hd) h2
      exact hc hd
    rw [streamPart_append, Machine.replay_append, (step_cases h1).replay hd]
    exact ih h2

end FullStream

end ImapFlow
