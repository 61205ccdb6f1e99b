import Verif.Proofs.ClientView
import Verif.Proofs.ClientSafe

/-!
# What the client reads is determined by the input
-/

namespace ImapFlow

variable {ε μ : Type} {F : Framing ε μ}

theorem FailedAs.complete {e : ClientError} (h : FailedAs F e) : Complete F e.bytes := by
  rcases h with ⟨w, x, rfl, h⟩ | ⟨w, rfl, h⟩
  · exact h.complete
  · exact h.complete

theorem split_unique {p l p' l' : Bytes} (ha : Announced F p) (hl : IsLine l) (ha' : Announced F p')
    (hl' : IsLine l') (h : p ++ l = p' ++ l') : p = p' ∧ l = l' := by
  have key : p = p' := by
    have hlen := congrArg List.length h
    have h0 : l.length ≠ 0 := by simp [hl.ne_nil]
    have h0' : l'.length ≠ 0 := by simp [hl'.ne_nil]
    simp only [List.length_append] at hlen
    rcases Nat.le_total p.length p'.length with hle | hle
    · rcases ha.compare hl (List.prefix_refl _) ha' (h ▸ List.prefix_append _ _) hle with
        h1 | ⟨-, e, d, -, -, h1⟩
      · exact h1
      · have := h1.length_le
        simp only [List.length_append] at this
        omega
    · rcases ha'.compare hl' (List.prefix_refl _) ha (h ▸ List.prefix_append _ _) hle with
        h1 | ⟨-, e, d, -, -, h1⟩
      · exact h1.symm
      · have := h1.length_le
        simp only [List.length_append] at this
        omega
  subst key
  exact ⟨rfl, List.append_cancel_left h⟩

theorem IsBadLine.not_message {w : Bytes} {m : μ} (h : IsBadLine F w) : ¬ IsMessage F w m := by
  obtain ⟨p, l, rfl, ha, hl, hc⟩ := h
  rintro ⟨p', l', he, ha', hl', hc', -⟩
  obtain ⟨-, rfl⟩ := split_unique ha hl ha' hl' he
  exact hc hc'

theorem IsBadLine.not_undecodable {w : Bytes} {e : ε} (h : IsBadLine F w) : ¬ IsUndecodable F w e := by
  obtain ⟨p, l, rfl, ha, hl, hc⟩ := h
  rintro ⟨p', l', he, ha', hl', hc', -⟩
  obtain ⟨-, rfl⟩ := split_unique ha hl ha' hl' he
  exact hc hc'

theorem IsMessage.not_undecodable {w : Bytes} {m : μ} {e : ε} (h : IsMessage F w m) : ¬ IsUndecodable F w e := by
  obtain ⟨p, l, -, -, -, -, hd⟩ := h
  rintro ⟨p', l', -, -, -, -, hd', -⟩
  rw [hd] at hd'; cases hd'

theorem IsMessage.det {w : Bytes} {m m' : μ} (h : IsMessage F w m) (h' : IsMessage F w m') : m = m' := by
  obtain ⟨p, l, -, -, -, -, hd⟩ := h
  obtain ⟨p', l', -, -, -, -, hd'⟩ := h'
  rw [hd] at hd'; cases hd'; rfl

/-- Nothing ends inside an announced literal. -/
theorem Complete.beyond_literal {w p l X : Bytes} {e : ε} {k : Nat} (hw : Complete F w) (hX : w <+: X)
    (hp : Announced F p) (hl : IsLine l) (hc : CrlfOk F.relaxed l) (hpl : p ++ l <+: X)
    (hd : F.dec (p ++ l) = .error e) (hk : F.lit e = some k) : (p ++ l).length + k < w.length := by
  obtain ⟨p', l', rfl, ha', hl', hc'⟩ := hw
  have hp'X : p' <+: X := (List.prefix_append p' l').trans hX
  have hpX : p <+: X := (List.prefix_append p l).trans hpl
  rcases Nat.le_total p.length p'.length with hle | hle
  · rcases hp.compare hl hpl ha' hp'X hle with rfl | ⟨-, e', d, h1, h2, h3⟩
    · have := hl.unique_after hl' hpl hX
      subst this
      rw [hc' hc e hd] at hk
      cases hk
    · rw [hd] at h1; cases h1
      rw [hk] at h2; cases h2
      have h4 := h3.length_le
      have h5 : l'.length ≠ 0 := by simp [hl'.ne_nil]
      simp only [List.length_append] at *
      omega
  · rcases ha'.compare hl' hX hp hpX hle with rfl | ⟨h0, e', d, h1, h2, h3⟩
    · have := hl.unique_after hl' hpl hX
      subst this
      rw [hc' hc e hd] at hk
      cases hk
    · rw [hc' h0 e' h1] at h2
      cases h2

namespace Client

variable {L : Lib} {g : HandleGenerator} {o : ClientOptions} {ops : List ClientOp} {c : Client}
  {T T1 T2 : List CItem} {i : CItem}

theorem trace_prefix_inv (hL : L.Lawful) (h : (Client.new g o).trace L ops = .ok (c, T1 ++ T2)) :
    ∃ c1 : Client, c1.Inv L o.crlfRelaxed (ClientView.of T1) := by
  obtain ⟨c1, h1, -⟩ := (trace_steps h).split
  exact ⟨c1, steps_inv hL (new_inv L g o) h1⟩

theorem Inv.given {relaxed : Bool} {v : ClientView} (h : c.Inv L relaxed v) :
    v.given = v.consumed ++ c.buffer := by
  obtain ⟨-, h⟩ := h
  unfold buffer
  cases hr : c.receiveState with
  | dummy => rw [hr] at h; exact h.elim
  | greeting st => rw [hr] at h; exact h.2.2.2.1
  | response st => rw [hr] at h; exact h.2.2.2

theorem Inv.unread (h : c.Inv L o.crlfRelaxed (ClientView.of T)) : clientUnread T = c.buffer := by
  have := h.given
  obtain ⟨h1, h2, -⟩ := ClientView.of_fields T
  rw [h1, h2] at this
  rw [clientUnread, this]
  simp

theorem given_eq (h : c.Inv L o.crlfRelaxed (ClientView.of T)) :
    clientGiven T = clientTaken T ++ clientUnread T := by
  have := h.given
  obtain ⟨h1, h2, -⟩ := ClientView.of_fields T
  rw [h1, h2] at this
  rw [h.unread, this]

theorem of_given {rest w : Bytes} (h : c.Inv L o.crlfRelaxed (ClientView.of T))
    (hg : (ClientView.of T).given = (ClientView.of T).consumed ++ w ++ rest) : w ++ rest = clientUnread T := by
  obtain ⟨h1, h2, -⟩ := ClientView.of_fields T
  rw [h1, h2, given_eq h, List.append_assoc, List.append_cancel_left_eq] at hg
  exact hg.symm

/-- What is taken is one complete unit of the unread input. -/
theorem taken_complete (h : c.Inv L o.crlfRelaxed (ClientView.of T)) (hg : Guard L o.crlfRelaxed (ClientView.of T) i)
    (ht : i.taken ≠ []) :
    i.taken <+: clientUnread T ∧
    (¬ clientGreeted T → Complete (greetingFraming L o.crlfRelaxed) i.taken) ∧
    (clientGreeted T → Complete (responseFraming L o.crlfRelaxed) i.taken) := by
  have hgr := ClientView.of_greeted T
  cases i with
  | received w e =>
    obtain ⟨-, ⟨rest, h1⟩, h2⟩ := hg
    refine ⟨⟨rest, of_given h h1⟩, fun hn => ?_, fun hy => ?_⟩
    · rcases h2 with ⟨-, gr, -, h2⟩ | ⟨h2, -⟩
      · exact h2.complete
      · exact (hn (hgr.mp h2)).elim
    · rcases h2 with ⟨h2, -⟩ | ⟨-, r, -, h2⟩
      · rw [hgr.mpr hy] at h2; cases h2
      · exact h2.complete
  | released w =>
    obtain ⟨h0, -, ⟨rest, h1⟩, q, -, h2⟩ := hg
    exact ⟨⟨rest, of_given h h1⟩, fun hn => (hn (hgr.mp h0)).elim, fun _ => h2.complete⟩
  | failed e =>
    obtain ⟨-, ⟨rest, h1⟩, h2, h3⟩ := hg
    refine ⟨⟨rest, of_given h h1⟩, fun hn => ?_, fun hy => (h3 (hgr.mpr hy)).complete⟩
    refine (h2 ?_).complete
    cases hh : (ClientView.of T).greeted with
    | false => rfl
    | true => exact (hn (hgr.mp hh)).elim
  | _ => exact (ht rfl).elim

/-- A run has a trace. -/
theorem run_trace {c0 : Client} {hist : List ClientObs} (h : c0.run L ops = .ok (c, hist)) :
    ∃ T, c0.trace L ops = .ok (c, T) ∧ T.filterMap CItem.erase = hist := by
  rw [← trace_erase] at h
  cases ht : c0.trace L ops with
  | error p => rw [ht] at h; cases h
  | ok x =>
    obtain ⟨c', T⟩ := x
    rw [ht] at h
    simp only [eraseRes, Except.ok.injEq, Prod.mk.injEq] at h
    exact ⟨T, by rw [h.1], h.2⟩

end Client

end ImapFlow
