import Verif.Proofs.ProxyLinks

/-!
# The state of AUTHENTICATE and IDLE on both connections of the proxy
-/

namespace ImapFlow

/-! ## The client -/

theorem SendOk.fresh {L : Lib} {v : ClientView} {s : ClientSendState} (h : SendOk L v s) (hr : v.remaining = []) :
    v.Fresh := by
  obtain ⟨-, h⟩ := h
  split at h
  · exact h.1
  · rw [h.2.2] at hr; cases hr

theorem SendOk.accepted {L : Lib} {v : ClientView} {s : ClientSendState} (h : SendOk L v s) (hr : v.accepted = true) :
    v.sent ≠ [] := by
  obtain ⟨-, h⟩ := h
  split at h
  · rw [h.1.2.2.2.2.2.1] at hr; cases hr
  · exact h.2.1

theorem SendOk.asked {L : Lib} {v : ClientView} {s : ClientSendState} (h : SendOk L v s)
    (hr : v.asked = v.datas.length + 1) :
    v.sent ≠ [] ∧ ∃ x q, v.remaining = x :: q ∧ x.2.isAuthenticate = true := by
  obtain ⟨-, h⟩ := h
  split at h
  · obtain ⟨⟨-, -, -, h1, h2, -⟩, -⟩ := h
    rw [h1, h2] at hr; cases hr
  · rename_i cur _
    refine ⟨h.2.1, _, _, h.2.2, ?_⟩
    obtain ⟨h, -⟩ := h
    cases cur with
    | command s =>
      obtain ⟨-, -, h1, h2, -⟩ := h
      rw [h1, h2] at hr; cases hr
    | authenticate s => rfl
    | idle s =>
      obtain ⟨-, h1, h2, -⟩ := h
      rw [h1, h2] at hr; cases hr

/-- What both views agree on after silent steps. -/
structure ClientView.Same (v v' : ClientView) : Prop where
  enqueued : v'.enqueued = v.enqueued
  ended : v'.ended = v.ended
  accepted : v'.accepted = v.accepted
  doneSet : v'.doneSet = v.doneSet
  asked : v'.asked = v.asked
  datas : v'.datas = v.datas

theorem ClientView.Same.refl (v : ClientView) : v.Same v := ⟨rfl, rfl, rfl, rfl, rfl, rfl⟩

theorem ClientView.Same.trans {v v1 v2 : ClientView} (h : v.Same v1) (h' : v1.Same v2) : v.Same v2 :=
  ⟨h'.1.trans h.1, h'.2.trans h.2, h'.3.trans h.3, h'.4.trans h.4, h'.5.trans h.5, h'.6.trans h.6⟩

theorem ClientView.Same.remaining {v v' : ClientView} (h : v.Same v') : v'.remaining = v.remaining := by
  unfold ClientView.remaining
  rw [h.enqueued, h.ended]

theorem ClientView.same_silent {v : ClientView} {i : CItem} (h : i.Silent) : v.Same (v.observe i) := by
  cases i <;> first | exact h.elim | exact ⟨rfl, rfl, rfl, rfl, rfl, rfl⟩

theorem ClientView.of_silent {U W : List CItem} (h : ∀ i ∈ W, i.Silent) : (ClientView.of U).Same (ClientView.of (U ++ W)) := by
  induction W using snocInduction with
  | nil => rw [List.append_nil]; exact .refl _
  | snoc W i ih =>
    rw [← List.append_assoc, ClientView.of_snoc]
    exact (ih fun j hj => h j (by simp [hj])).trans (ClientView.same_silent (h i (by simp)))

theorem serverPhase_silent {V W : List SItem} (h : ∀ i ∈ W, i.Silent) : serverPhase (V ++ W) = serverPhase V := by
  induction W using snocInduction with
  | nil => rw [List.append_nil]
  | snoc W i ih =>
    rw [← List.append_assoc, serverPhase_snoc, ih fun j hj => h j (by simp [hj])]
    have := h i (by simp)
    cases i <;> first | exact this.elim | rfl

/-! ## Both sides -/

/-- The server needs nothing but time to be done with these commands: no AUTHENTICATE, and only the first one
can be an IDLE, which was ended. -/
def Settled (doneSet : Bool) : List (RawHandle × Command) → Prop
  | [] => True
  | x :: q => (x.2.isRegular = true ∨ (x.2.isIdle = true ∧ doneSet = true)) ∧ ∀ y ∈ q, y.2.isRegular = true

/-- What the proxy expects from its client agrees with what it sends to its server. -/
def InStep (v : ClientView) : ServerPhase → Prop
  | .command => Settled v.doneSet v.remaining
  | .authenticate => ∃ q x, v.remaining = q ++ [x] ∧ Settled v.doneSet q ∧ x.2.isAuthenticate = true
  | .idlePending => ∃ q x, v.remaining = q ++ [x] ∧ Settled v.doneSet q ∧ x.2.isIdle = true ∧
      (q = [] → v.accepted = false ∧ v.doneSet = false)
  | .idle => ∃ x, v.remaining = [x] ∧ x.2.isIdle = true ∧ v.accepted = true ∧ v.doneSet = false

/-- Both sides and what an observer sees agree. -/
structure Joint (w : ProxyWatch) (ph : ServerPhase) (v : ClientView) : Prop where
  inStep : InStep v ph
  asked : w.asked = true ↔ v.asked = v.datas.length + 1
  idling : w.idling = true ↔ ph = .idle

theorem InStep.same {v v' : ClientView} {ph : ServerPhase} (h : InStep v ph) (hv : v.Same v') : InStep v' ph := by
  cases ph <;> simp only [InStep, hv.remaining, hv.accepted, hv.doneSet] at h ⊢ <;> exact h

theorem Joint.same {w : ProxyWatch} {ph : ServerPhase} {v v' : ClientView} (h : Joint w ph v) (hv : v.Same v') :
    Joint w ph v' :=
  ⟨h.inStep.same hv, by rw [hv.asked, hv.datas]; exact h.asked, h.idling⟩

theorem isRegular_not {c : Command} (h : c.isRegular = true) : c.isIdle = false ∧ c.isAuthenticate = false := by
  obtain ⟨t, b⟩ := c
  cases b <;> simp_all [Command.isRegular, Command.isIdle, Command.isAuthenticate]

theorem isIdle_not {c : Command} (h : c.isIdle = true) : c.isRegular = false ∧ c.isAuthenticate = false := by
  obtain ⟨t, b⟩ := c
  cases b <;> simp_all [Command.isRegular, Command.isIdle, Command.isAuthenticate]

theorem isAuthenticate_not {c : Command} (h : c.isAuthenticate = true) : c.isRegular = false ∧ c.isIdle = false := by
  obtain ⟨t, b⟩ := c
  cases b <;> simp_all [Command.isRegular, Command.isIdle, Command.isAuthenticate]

theorem Settled.regular {d : Bool} {q : List (RawHandle × Command)} (h : ∀ y ∈ q, y.2.isRegular = true) : Settled d q := by
  cases q with
  | nil => trivial
  | cons x q => exact ⟨.inl (h x List.mem_cons_self), fun y hy => h y (List.mem_cons_of_mem _ hy)⟩

theorem Settled.head {d : Bool} {x : RawHandle × Command} {q : List (RawHandle × Command)} (h : Settled d (x :: q)) :
    x.2.isAuthenticate = false ∧ (x.2.isIdle = true → d = true) := by
  rcases h.1 with h1 | ⟨h1, h2⟩
  · exact ⟨(isRegular_not h1).2, fun h3 => by rw [(isRegular_not h1).1] at h3; cases h3⟩
  · exact ⟨(isIdle_not h1).2, fun _ => h2⟩

theorem snoc_cons {α : Type} {q q' : List α} {x y : α} (h : q ++ [x] = y :: q') :
    (q = [] ∧ q' = [] ∧ x = y) ∨ ∃ r, q = y :: r ∧ q' = r ++ [x] := by
  cases q with
  | nil => simp only [List.nil_append, List.cons.injEq] at h; exact .inl ⟨rfl, h.2.symm, h.1⟩
  | cons z r =>
    simp only [List.cons_append, List.cons.injEq] at h
    exact .inr ⟨r, by rw [h.1], h.2.symm⟩

/-- A command that was sent or rejected, or an IDLE that was ended, leaves both sides in step. -/
theorem InStep.terminate {v : ClientView} {ph : ServerPhase} {e : ClientEvent} {x : RawHandle × Command}
    {q : List (RawHandle × Command)} (h : InStep v ph) (hr : v.remaining = x :: q)
    (hx : x.2.isRegular = true ∨ (x.2.isIdle = true ∧ v.doneSet = true)) : InStep (v.terminate e) ph := by
  have hr' : (v.terminate e).remaining = q := (ClientView.remaining_terminate hr).1
  have hxa : x.2.isAuthenticate = false := by
    rcases hx with hx | hx
    · exact (isRegular_not hx).2
    · exact (isIdle_not hx.1).2
  cases ph with
  | command =>
    simp only [InStep, hr'] at h ⊢
    rw [hr] at h
    exact .regular h.2
  | authenticate =>
    obtain ⟨q1, y, h1, h2, h3⟩ := h
    rw [hr] at h1
    rcases snoc_cons h1.symm with ⟨rfl, rfl, rfl⟩ | ⟨r, rfl, rfl⟩
    · rw [hxa] at h3; cases h3
    · exact ⟨r, y, hr', .regular h2.2, h3⟩
  | idlePending =>
    obtain ⟨q1, y, h1, h2, h3, h4⟩ := h
    rw [hr] at h1
    rcases snoc_cons h1.symm with ⟨rfl, rfl, rfl⟩ | ⟨r, rfl, rfl⟩
    · rcases hx with hx | hx
      · rw [(isRegular_not hx).1] at h3; cases h3
      · rw [(h4 rfl).2] at hx; cases hx.2
    · exact ⟨r, y, hr', .regular h2.2, h3, fun _ => ⟨rfl, rfl⟩⟩
  | idle =>
    obtain ⟨y, h1, h2, -, h4⟩ := h
    rw [hr] at h1
    simp only [List.cons.injEq] at h1
    obtain ⟨rfl, -⟩ := h1
    rcases hx with hx | hx
    · rw [(isRegular_not hx).1] at h2; cases h2
    · rw [h4] at hx; cases hx.2

/-- An AUTHENTICATE is running only while the server side expects authenticate data. -/
theorem InStep.authenticate {v : ClientView} {ph : ServerPhase} {x : RawHandle × Command}
    {q : List (RawHandle × Command)} (h : InStep v ph) (hr : v.remaining = x :: q) (hx : x.2.isAuthenticate = true) :
    ph = .authenticate ∧ q = [] := by
  cases ph with
  | command =>
    simp only [InStep, hr] at h
    rw [h.head.1] at hx; cases hx
  | authenticate =>
    obtain ⟨q1, y, h1, h2, h3⟩ := h
    rw [hr] at h1
    rcases snoc_cons h1.symm with ⟨rfl, rfl, rfl⟩ | ⟨r, rfl, rfl⟩
    · exact ⟨rfl, rfl⟩
    · rw [h2.head.1] at hx; cases hx
  | idlePending =>
    obtain ⟨q1, y, h1, h2, h3, h4⟩ := h
    rw [hr] at h1
    rcases snoc_cons h1.symm with ⟨rfl, rfl, rfl⟩ | ⟨r, rfl, rfl⟩
    · rw [(isIdle_not h3).2] at hx; cases hx
    · rw [h2.head.1] at hx; cases hx
  | idle =>
    obtain ⟨y, h1, h2, -, h4⟩ := h
    rw [hr] at h1
    simp only [List.cons.injEq] at h1
    obtain ⟨rfl, -⟩ := h1
    rw [(isIdle_not h2).2] at hx; cases hx

/-- An IDLE that was not ended is running only while the server side waits for it. -/
theorem InStep.idleing {v : ClientView} {ph : ServerPhase} {x : RawHandle × Command}
    {q : List (RawHandle × Command)} (h : InStep v ph) (hr : v.remaining = x :: q) (hx : x.2.isIdle = true)
    (hd : v.doneSet = false) : q = [] ∧ ((ph = .idlePending ∧ v.accepted = false) ∨ (ph = .idle ∧ v.accepted = true)) := by
  cases ph with
  | command =>
    simp only [InStep, hr] at h
    rw [h.head.2 hx] at hd; cases hd
  | authenticate =>
    obtain ⟨q1, y, h1, h2, h3⟩ := h
    rw [hr] at h1
    rcases snoc_cons h1.symm with ⟨rfl, rfl, rfl⟩ | ⟨r, rfl, rfl⟩
    · rw [(isAuthenticate_not h3).2] at hx; cases hx
    · rw [h2.head.2 hx] at hd; cases hd
  | idlePending =>
    obtain ⟨q1, y, h1, h2, h3, h4⟩ := h
    rw [hr] at h1
    rcases snoc_cons h1.symm with ⟨rfl, rfl, rfl⟩ | ⟨r, rfl, rfl⟩
    · exact ⟨rfl, .inl ⟨rfl, (h4 rfl).1⟩⟩
    · rw [h2.head.2 hx] at hd; cases hd
  | idle =>
    obtain ⟨y, h1, h2, h3, h4⟩ := h
    rw [hr] at h1
    simp only [List.cons.injEq] at h1
    exact ⟨h1.2, .inr ⟨rfl, h3⟩⟩

end ImapFlow
