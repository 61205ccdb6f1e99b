import Verif.Proofs.ClientNext

/-!
# Pending literals
-/

namespace ImapFlow

theorem syncs_split {pre post pre' post' : List Fragment} {d : Bytes}
    (h : pre ++ .literal d .sync :: post = pre' ++ post') (hs : syncs pre' = syncs pre + 1) :
    ∃ x, pre' = pre ++ .literal d .sync :: x := by
  rcases List.append_eq_append_iff.mp h with ⟨a, h1, h2⟩ | ⟨a, h1, h2⟩
  · cases a with
    | nil =>
      rw [h1, List.append_nil] at hs
      omega
    | cons y a =>
      simp only [List.cons_append, List.cons.injEq] at h2
      obtain ⟨rfl, -⟩ := h2
      exact ⟨a, h1⟩
  · rw [h1, syncs_append] at hs
    omega

/-- The literal `d` was released and is not output yet. -/
def ReleasedLiteral (L : Lib) (v : ClientView) (h : RawHandle) (cmd : Command) (d : Bytes) : Prop :=
  v.greeted = true ∧ v.current = some (h, cmd) ∧ cmd.isRegular = true ∧
  ∃ pre post, L.encodeCommand cmd = pre ++ .literal d .sync :: post ∧ v.sent = wire pre ∧
    v.released = syncs pre + 1

theorem Command.regular_excl {c : Command} (h : c.isRegular = true) :
    c.isAuthenticate = false ∧ c.isIdle = false := by
  unfold isAuthenticate isIdle
  unfold isRegular at h
  cases hc : c.body <;> simp_all

theorem ReleasedLiteral.next {L : Lib} {relaxed : Bool} {v : ClientView} {i : CItem} {h : RawHandle}
    {cmd : Command} {d : Bytes} (hp : ReleasedLiteral L v h cmd d) (hd : d ≠ [])
    (hg : Client.Guard L relaxed v i) (hi : i.isNext = true) : ∃ b, i = .output b ∧ d <+: b := by
  obtain ⟨hgr, hcur, hr, pre, post, henc, hs, hrel⟩ := hp
  obtain ⟨q, hrem⟩ := ClientView.remaining_of_current hcur
  obtain ⟨hn1, hn2⟩ := Command.regular_excl hr
  have hw : ¬ Waiting L v := by
    rintro (⟨hf, -⟩ | ⟨h, cmd', q', hrem', -, h2⟩)
    · have := hf.2.1; omega
    · rw [hrem] at hrem'; cases hrem'
      rcases h2 with ⟨-, -, pre', d', post', e1, e2, e3⟩ | ⟨h3, -⟩ | ⟨h3, -⟩
      · obtain ⟨x, rfl⟩ := syncs_split (henc.symm.trans e1) (by omega)
        rw [hs, wire_append, wire_cons] at e2
        have := congrArg List.length e2
        simp only [List.length_append, Fragment.data] at this
        exact hd (List.length_eq_zero_iff.mp (by omega))
      · rw [hn1] at h3; cases h3
      · rw [hn2] at h3; cases h3
  cases i with
  | enqueue => cases hi
  | input => cases hi
  | setAuth => cases hi
  | setDone => cases hi
  | output b =>
    refine ⟨b, rfl, ?_⟩
    obtain ⟨-, -, h, cmd', q', h1, h2⟩ := hg
    rw [hrem] at h1
    cases h1
    rcases h2 with ⟨-, -, pre', post', e1, e2, e3, -⟩ | ⟨h3, -⟩ | ⟨h3, -⟩
    · obtain ⟨x, rfl⟩ := syncs_split (henc.symm.trans e1) (by omega)
      rw [hs, wire_append, wire_cons, List.append_cancel_left_eq] at e2
      rw [e2]
      exact List.prefix_append ..
    · rw [hn1] at h3; cases h3
    · rw [hn2] at h3; cases h3
  | sent e =>
    obtain ⟨-, h, cmd', q', h1, h2⟩ := hg
    rw [hrem] at h1
    cases h1
    rcases h2 with ⟨-, -, -, e2, -⟩ | ⟨-, h3, -⟩ | ⟨-, h3, -⟩ | ⟨-, h3, -⟩
    · rw [hs, henc, wire_append, wire_cons] at e2
      have := congrArg List.length e2
      simp only [List.length_append, Fragment.data] at this
      exact (hd (List.length_eq_zero_iff.mp (by omega))).elim
    · rw [hn1] at h3; cases h3
    · rw [hn2] at h3; cases h3
    · rw [hn2] at h3; cases h3
  | received w e => exact (hw (hg.1 hgr)).elim
  | released w => exact (hw hg.2.1).elim
  | failed e => exact (hw (hg.1 hgr)).elim
  | starved => exact (hw (hg.1 hgr)).elim

theorem ReleasedLiteral.skip {L : Lib} {relaxed : Bool} {v : ClientView} {i : CItem} {h : RawHandle}
    {cmd : Command} {d : Bytes} (hp : ReleasedLiteral L v h cmd d)
    (hg : Client.Guard L relaxed v i) (hi : i.isNext = false) : ReleasedLiteral L (v.observe i) h cmd d := by
  have hp' := hp
  obtain ⟨hgr, hcur, hr, pre, post, henc, hs, hrel⟩ := hp
  obtain ⟨q, hrem⟩ := ClientView.remaining_of_current hcur
  obtain ⟨hn1, hn2⟩ := Command.regular_excl hr
  cases i with
  | enqueue h c =>
    refine ⟨hgr, ?_, hr, pre, post, henc, hs, hrel⟩
    have hne : v.sent ≠ [] := by
      intro hs'
      rw [ClientView.current, if_pos hs'] at hcur
      cases hcur
    exact ClientView.current_head hne (ClientView.enqueued_remaining hrem)
  | input b => exact hp'
  | setAuth d' r =>
    have hr : r = .error d' := by
      have : r = v.authReply d' := hg
      rw [this, ClientView.authReply, hcur]
      simp [hn1]
    subst hr
    exact hp'
  | setDone r =>
    have hr : r = none := by
      have : r = v.doneReply := hg
      rw [this, ClientView.doneReply, hcur]
      simp [hn2]
    subst hr
    exact hp'
  | _ => cases hi

theorem Waiting.pending {L : Lib} {v : ClientView} {h : RawHandle} {cmd : Command} (hw : Waiting L v)
    (hcur : v.current = some (h, cmd)) (hr : cmd.isRegular = true) : ∃ d, PendingLiteral L v h cmd d := by
  obtain ⟨q, hrem⟩ := ClientView.remaining_of_current hcur
  obtain ⟨hn1, hn2⟩ := Command.regular_excl hr
  rcases hw with ⟨-, h1⟩ | ⟨h', cmd', q', h1, hne, h2⟩
  · rw [hrem] at h1; cases h1
  · rw [hrem] at h1; cases h1
    rcases h2 with ⟨-, -, pre, d, post, e1, e2, e3⟩ | ⟨h3, -⟩ | ⟨h3, -⟩
    · exact ⟨d, hcur, hr, pre, post, e1, e2, e3⟩
    · rw [hn1] at h3; cases h3
    · rw [hn2] at h3; cases h3

/-- A continuation request is taken silently only by a pending literal. -/
theorem route_none {L : Lib} {v : ClientView} {r : Response} (hw : Waiting L v) (h : v.route r = none) :
    ∃ h cmd d, PendingLiteral L v h cmd d := by
  unfold ClientView.route at h
  cases r with
  | data d => cases h
  | status st =>
    exfalso
    simp only at h
    split at h
    · split at h
      · split at h
        · split at h <;> cases h
        · cases h
        · cases h
      · cases h
    · cases h
  | continuationRequest q =>
    simp only at h
    split at h
    · cases h
    · rename_i h' cmd hcur
      split at h
      · rename_i o ho
        obtain ⟨d, hd⟩ := hw.pending hcur (by simp [Command.isRegular, ho])
        exact ⟨h', cmd, d, hd⟩
      · split at h <;> cases h
      · split at h <;> cases h

theorem route_response {v : ClientView} {r : Response} {e : ClientEvent} (h : v.route r = some e) :
    e.response? = some r := by
  unfold ClientView.route at h
  cases r with
  | data d => cases h; rfl
  | status st =>
    simp only at h
    split at h
    · split at h
      · split at h
        · split at h <;> cases h <;> rfl
        · cases h; rfl
        · cases h; rfl
      · cases h; rfl
    · cases h; rfl
  | continuationRequest q =>
    simp only at h
    split at h
    · cases h; rfl
    · split at h
      · cases h
      · split at h <;> cases h <;> rfl
      · split at h <;> cases h <;> rfl

end ImapFlow
