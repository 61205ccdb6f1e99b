import Verif.Proofs.FullStreamRun
import Verif.Spec.Accepted

/-!
# Outputs that `encrypt` refuses
-/

namespace ImapFlow

variable {K σ ε ev ι : Type}

/-- The records `w` carry `p`; the connection becomes another one. -/
def Pushes (paired : K → K → Prop) : Option (Tls K) → Option (Tls K) → Bytes → Bytes → Prop
  | some t, some t', w, p => t'.layer = t.layer ∧ t'.limit = t.limit ∧
      ∀ kr, paired t.writeKey kr → ∃ (ds : List Bytes) (kr' : K), t.layer.Carries kr w (ds.map .data) kr' ∧ ds.flatten = p ∧
        paired t'.writeKey kr'
  | none, none, w, p => w = p
  | _, _, _, _ => False

/-- The record layer of the connection keeps its contract. -/
def Layered (paired : K → K → Prop) (tls : Option (Tls K)) : Prop := ∀ t, tls = some t → t.layer.Delivers paired

theorem Pushes.layered {paired : K → K → Prop} {t t' : Option (Tls K)} {w p : Bytes} (h : Pushes paired t t' w p)
    (hl : Layered paired t) : Layered paired t' := by
  rintro t2 rfl
  cases t with
  | none => exact h.elim
  | some t => rw [h.1]; exact hl t rfl

theorem Pushes.trans {paired : K → K → Prop} {t1 t2 t3 : Option (Tls K)} {w1 w2 p1 p2 : Bytes} (h1 : Pushes paired t1 t2 w1 p1)
    (h2 : Pushes paired t2 t3 w2 p2) : Pushes paired t1 t3 (w1 ++ w2) (p1 ++ p2) := by
  cases t1 with
  | none =>
    cases t2 with
    | some => exact h1.elim
    | none =>
      cases t3 with
      | some => exact h2.elim
      | none => cases h1; cases h2; rfl
  | some t1 =>
    cases t2 with
    | none => exact h1.elim
    | some t2 =>
      cases t3 with
      | none => exact h2.elim
      | some t3 =>
        obtain ⟨a1, a2, a4⟩ := h1
        obtain ⟨b1, b2, b4⟩ := h2
        refine ⟨b1.trans a1, b2.trans a2, fun kr hk => ?_⟩
        obtain ⟨ds1, kr1, c1, c2, c3⟩ := a4 kr hk
        obtain ⟨ds2, kr2, d1, d2, d3⟩ := b4 kr1 c3
        refine ⟨ds1 ++ ds2, kr2, ?_, by simp [c2, d2], d3⟩
        rw [List.map_append]
        exact c1.append (a1 ▸ d1)

theorem SameSend.pushes (paired : K → K → Prop) {t t' : Option (Tls K)} (h : SameSend t t') : Pushes paired t t' [] [] := by
  cases t with
  | none => cases t' with | none => exact (rfl : ([] : Bytes) = []) | some => exact h.elim
  | some t =>
    cases t' with
    | none => exact h.elim
    | some t' => exact ⟨h.1, h.2.1, fun kr hk => ⟨[], kr, .nil _, rfl, h.2.2.2 ▸ hk⟩⟩

theorem Pushes.refl (paired : K → K → Prop) (t : Option (Tls K)) : Pushes paired t t [] [] := (SameSend.refl t).pushes paired

/-- Sealing some bytes. -/
theorem sealed_pushes {paired : K → K → Prop} {t : Tls K} (hD : t.layer.Delivers paired) (b : Bytes) :
    Pushes paired (some t) (some (t.sealed b)) (t.layer.protect t.writeKey b).2.flatten b := by
  refine ⟨rfl, rfl, fun kr hk => ?_⟩
  obtain ⟨cs, kr', h1, h2, h3⟩ := hD.carries hk b
  exact ⟨cs, kr', h1, h2, h3⟩

theorem pushes_sendable {paired : K → K → Prop} {t t' : Tls K} {w p : Bytes} (h : Pushes paired (some t) (some t') w p)
    (s : List Bytes) : Pushes paired (some t) (some { t' with sendable := s }) w p := h

/-- `encrypt`, whatever waits in the connection. -/
theorem encrypt_any {paired : K → K → Prop} {t t' : Tls K} (hD : t.layer.Delivers paired) {wb wb' b : Bytes}
    {r : Except TlsError Unit} (h : t.encrypt wb b = (t', wb', r)) :
    ∃ w p, Pushes paired (some t) (some t') w p ∧ wb' ++ t'.sendable.flatten = wb ++ t.sendable.flatten ++ w ∧
      (r = .ok () → p = b ∧ t'.sendable = []) ∧ (r ≠ .ok () → p <+: b ∧ p.length < b.length) := by
  by_cases hb : b = []
  · subst hb
    simp only [Tls.encrypt, List.isEmpty_nil, if_true, Tls.drainWrites_eq] at h
    cases h
    exact ⟨[], [], pushes_sendable (.refl paired (some t)) [], by simp, by simp, by simp⟩
  · by_cases hl : b.length ≤ t.space
    · simp only [Tls.encrypt, List.isEmpty_eq_false_iff.2 hb, t.writeAll_fits hb hl, Bool.false_eq_true, if_false,
        Tls.drainWrites_eq] at h
      cases h
      exact ⟨_, b, pushes_sendable (sealed_pushes hD b) [], by simp [Tls.sealed], by simp, by simp⟩
    · have hl : t.space < b.length := by omega
      simp only [Tls.encrypt, List.isEmpty_eq_false_iff.2 hb, t.writeAll_too_long hD hl, Bool.false_eq_true, if_false] at h
      cases h
      by_cases hz : t.space = 0
      · rw [if_pos hz]
        exact ⟨[], [], .refl paired (some t), by simp, nofun, fun _ => ⟨List.nil_prefix, by
          cases b with
          | nil => exact (hb rfl).elim
          | cons => simp⟩⟩
      · rw [if_neg hz]
        exact ⟨_, b.take t.space, sealed_pushes hD _, by simp [Tls.sealed], nofun,
          fun _ => ⟨List.take_prefix .., by rw [List.length_take]; omega⟩⟩

theorem Accepted.append {T U : List (FullItem ε ev ι)} {p q : Bytes} (h1 : Accepted T p) (h2 : Accepted U q)
    (hU : U.head? ≠ some .refused) : Accepted (T ++ U) (p ++ q) := by
  induction h1 with
  | nil => exact h2
  | @whole b p T h _ ih =>
    rw [List.append_assoc]
    refine .whole ?_ ih
    cases T with
    | nil => exact hU
    | cons => exact h
  | part h3 h4 _ ih => rw [List.append_assoc]; exact .part h3 h4 ih
  | other h _ ih => exact .other h ih

/-- Items without outputs. -/
theorem accepted_nothing {T : List (FullItem ε ev ι)} (h : ∀ b, .stream (.poll (.error (.io (.output b)))) ∉ T) :
    Accepted T [] := by
  induction T with
  | nil => exact .nil
  | cons i T ih =>
    simp only [List.mem_cons, not_or] at h
    exact .other (fun b he => (h b).1 he.symm) (ih fun b => (h b).2)

/-- Without the last item. -/
theorem Accepted.unsnoc {T : List (FullItem ε ev ι)} {i : FullItem ε ev ι} {p : Bytes} (h : Accepted (T ++ [i]) p)
    (hi : ∀ b, i ≠ .stream (.poll (.error (.io (.output b))))) (hr : i ≠ .refused) : Accepted T p := by
  generalize hU : T ++ [i] = U at h
  induction h generalizing T with
  | nil => simp at hU
  | @whole b p U h1 h2 ih =>
    cases T with
    | nil => simp only [List.nil_append, List.cons.injEq] at hU; exact (hi b hU.1).elim
    | cons x T =>
      simp only [List.cons_append, List.cons.injEq] at hU
      obtain ⟨rfl, rfl⟩ := hU
      refine .whole ?_ (ih rfl)
      cases T with
      | nil => nofun
      | cons => exact h1
  | @part b q p U h1 h2 h3 ih =>
    rcases T with _ | ⟨x, _ | ⟨y, T⟩⟩
    · simp at hU
    · simp only [List.cons_append, List.nil_append, List.cons.injEq] at hU; exact (hr hU.2.1).elim
    · simp only [List.cons_append, List.cons.injEq] at hU
      obtain ⟨rfl, rfl, rfl⟩ := hU
      exact .part h1 h2 (ih rfl)
  | @other j p U h1 h2 ih =>
    cases T with
    | nil =>
      simp only [List.nil_append, List.cons.injEq] at hU
      obtain ⟨rfl, rfl⟩ := hU
      cases h2
      exact .nil
    | cons x T =>
      simp only [List.cons_append, List.cons.injEq] at hU
      obtain ⟨rfl, rfl⟩ := hU
      exact .other h1 (ih rfl)

theorem output_other {i : FullItem ε ev ι} {T : List (FullItem ε ev ι)}
    (h : ∀ b, i ≠ .stream (.poll (.error (.io (.output b))))) : streamOutput (streamPart (i :: T)) = streamOutput (streamPart T) := by
  cases i with
  | stream x =>
    rw [streamPart_cons]
    cases x with
    | poll r =>
      rcases r with ((_ | b) | e) | e
      · rfl
      · exact (h b rfl).elim
      · rfl
      · rfl
    | _ => rfl
  | _ => rfl

/-- Without refusals all outputs are whole. -/
theorem accepted_whole {T : List (FullItem ε ev ι)} {p : Bytes} (hr : .refused ∉ T) :
    Accepted T p ↔ p = streamOutput (streamPart T) := by
  constructor
  · intro h
    induction h with
    | nil => rfl
    | whole _ _ ih => rw [ih (by simp_all)]; rfl
    | part => simp at hr
    | @other i p T h _ ih =>
      rw [ih (by simp_all)]
      exact (output_other h).symm
  · rintro rfl
    induction T with
    | nil => exact .nil
    | cons i T ih =>
      simp only [List.mem_cons, not_or] at hr
      have := ih hr.2
      by_cases hi : ∃ b, i = .stream (.poll (.error (.io (.output b))))
      · obtain ⟨b, rfl⟩ := hi
        refine .whole ?_ this
        intro he
        exact hr.2 (List.mem_of_head? he)
      · have hi' : ∀ b, i ≠ .stream (.poll (.error (.io (.output b)))) := fun b he => hi ⟨b, he⟩
        rw [output_other hi']
        exact .other hi' this

namespace FullStream

/-- Everything that is on the way to the socket. -/
def pending (c : FullStream K σ) : Bytes := c.writeBuffer ++ c.waiting

theorem handleOutput_any {paired : K → K → Prop} {c c1 : FullStream K σ} (hD : Layered paired c.tls) {b : Bytes} {ok : Bool}
    (h : c.handleOutput b = (c1, ok)) :
    ∃ w p, Pushes paired c.tls c1.tls w p ∧ c1.pending = c.pending ++ w ∧ (ok = true → p = b ∧ c1.waiting = []) ∧
      (ok = false → p <+: b ∧ p.length < b.length) ∧ c1.ctl = c.ctl := by
  unfold handleOutput at h
  cases ht : c.tls with
  | none =>
    rw [ht] at h
    cases h
    refine ⟨b, b, rfl, ?_, fun _ => ⟨rfl, ?_⟩, nofun, rfl⟩ <;> simp [pending, waiting, ht]
  | some t =>
    rw [ht] at h
    simp only at h
    rcases he : t.encrypt c.writeBuffer b with ⟨t', wb', r⟩
    obtain ⟨w, p, e1, e2, e3, e4⟩ := encrypt_any (hD t ht) he
    rw [he] at h
    cases r with
    | ok u =>
      cases h
      obtain ⟨e5, e6⟩ := e3 rfl
      exact ⟨w, p, e1, by simpa [pending, waiting, ht] using e2, fun _ => ⟨e5, by simp [waiting, e6]⟩, nofun, rfl⟩
    | error e =>
      cases h
      exact ⟨w, p, e1, by simpa [pending, waiting, ht] using e2, nofun, fun _ => e4 nofun, rfl⟩

/-- The effect of a step on the sending side. -/
structure PushStep (paired : K → K → Prop) (c c' : FullStream K σ) (T : List (FullItem ε ev ι)) : Prop where
  out : ∃ w p, Pushes paired c.tls c'.tls w p ∧ streamWrote (streamPart T) ++ c'.pending = c.pending ++ w ∧ Accepted T p
  reading : c'.ctl = .at .reading → c'.pending = []
  flushing : c'.ctl = .at .flushing → c'.waiting = []
  head : T.head? ≠ some .refused

theorem same_waiting {c c' : FullStream K σ} (h : SameSend c.tls c'.tls) : c'.waiting = c.waiting := by
  unfold waiting
  cases ht : c.tls with
  | none =>
    cases ht' : c'.tls with
    | none => rfl
    | some => rw [ht, ht'] at h; exact h.elim
  | some t =>
    cases ht' : c'.tls with
    | none => rw [ht, ht'] at h; exact h.elim
    | some t' => rw [ht, ht'] at h; simp [h.2.2.1]

theorem provides_accepted {M : Machine σ ε ev ι} {b : Bytes} {s s1 : σ} {D : List (StreamItem ε ev ι)}
    (h : Provides M b s s1 D) : Accepted (D.map FullItem.stream) [] := by
  apply accepted_nothing
  intro b hm
  exact provides_no_poll h _ (by simpa using hm)

theorem Advanced.push {paired : K → K → Prop} {M : Machine σ ε ev ι} {c c' : FullStream K σ} {T : List (FullItem ε ev ι)}
    (h : Advanced M c c' T) (hD : Layered paired c.tls) :
    (∃ w p, Pushes paired c.tls c'.tls w p ∧ c'.pending = c.pending ++ w ∧ Accepted T p) ∧
      streamWrote (streamPart T) = [] ∧ (c'.ctl = .at .reading → c'.pending = []) ∧ c'.ctl ≠ .at .flushing ∧
      T.head? ≠ some .refused := by
  cases h with
  | hung h1 h2 h3 =>
    subst h3
    exact ⟨⟨[], [], .refl .., by simp [pending, waiting], accepted_nothing (by simp)⟩, rfl, nofun, nofun, nofun⟩
  | broken h1 h2 h3 =>
    subst h3
    exact ⟨⟨[], [], .refl .., by simp [pending, waiting], accepted_nothing (by simp)⟩, rfl, nofun, nofun, nofun⟩
  | inputPanic h1 h2 h3 =>
    subst h3
    refine ⟨⟨[], [], h1.same_send.pushes paired, ?_, accepted_nothing (by simp)⟩, rfl, nofun, nofun, nofun⟩
    rw [List.append_nil]
    exact congrArg (c.writeBuffer ++ ·) (same_waiting (c := c) (c' := { c with tls := _, readBuffer := _, ctl := _ }) h1.same_send)
  | nextPanic h1 h2 h3 h4 =>
    subst h4
    obtain ⟨d1, d2, -, -, d3⟩ := provides_quiet h2
    refine ⟨⟨[], [], h1.same_send.pushes paired, ?_, ?_⟩, ?_, nofun, nofun, ?_⟩
    · rw [List.append_nil]
      exact congrArg (c.writeBuffer ++ ·) (same_waiting (c := c) (c' := { c with tls := _, readBuffer := _, state := _, ctl := _ }) h1.same_send)
    · exact (provides_accepted h2).append (accepted_nothing (by simp)) nofun
    · rw [streamPart_append, streamPart_map, streamWrote_append, d2]; rfl
    · rcases h2 with ⟨-, -, rfl⟩ | ⟨-, -, rfl⟩ <;> simp
  | @returned _ _ _ D _ _ r h1 h2 h3 h4 h5 =>
    subst h5
    obtain ⟨d1, d2, -, -, d3⟩ := provides_quiet h2
    obtain ⟨p1, p2, -, -, p3⟩ := poll_items (ι := ι) r
    refine ⟨⟨[], [], h1.same_send.pushes paired, ?_, ?_⟩, ?_, nofun, nofun, ?_⟩
    · rw [List.append_nil]
      exact congrArg (c.writeBuffer ++ ·) (same_waiting (c := c) (c' := { c with tls := _, readBuffer := _, state := _, ctl := _ }) h1.same_send)
    · rw [List.map_append]
      refine (provides_accepted h2).append (accepted_nothing ?_) (by simp)
      intro b hm
      rcases r with (io | e) | e
      · exact h4 io rfl
      · simp [returns] at hm
      · simp [returns] at hm
    · rw [streamPart_map, streamWrote_append, d2, p2]; rfl
    · rcases h2 with ⟨-, -, rfl⟩ | ⟨-, -, rfl⟩ <;> simp
  | @waits tls _ _ D _ _ io c1 h1 h2 h3 h4 h5 =>
    subst h5
    obtain ⟨d1, d2, -, -, d3⟩ := provides_quiet h2
    obtain ⟨w, p, o1, o2, o3, -, -⟩ := handleOutput_any (paired := paired) ((h1.same_send.pushes paired).layered hD) h4
    obtain ⟨rfl, o4⟩ := o3 rfl
    refine ⟨⟨w, _, (h1.same_send.pushes paired).trans o1, ?_, ?_⟩, ?_, ?_, ?_, ?_⟩
    · refine Eq.trans (o2 : _) ?_
      congr 1
      exact congrArg (c.writeBuffer ++ ·) (same_waiting (c := c) (c' := { c with tls := tls, readBuffer := _, state := _ }) h1.same_send)
    · rw [List.map_append]
      refine (provides_accepted h2).append ?_ (by simp)
      cases io with
      | needMoreInput => exact accepted_nothing (by simp)
      | output b => have := Accepted.whole (b := b) (T := ([] : List (FullItem ε ev ι))) nofun .nil; simpa [outputBytes] using this
    · rw [streamPart_map, streamWrote_append, d2]; rfl
    · simp only
      split
      · rename_i hw
        intro _
        show c1.writeBuffer ++ c1.waiting = []
        rw [o4, List.isEmpty_iff.1 hw]; rfl
      · nofun
    · simp only
      split <;> nofun
    · rcases h2 with ⟨-, -, rfl⟩ | ⟨-, -, rfl⟩ <;> simp
  | @refused tls _ _ D _ _ io c1 h1 h2 h3 h4 h5 =>
    subst h5
    obtain ⟨d1, d2, -, -, d3⟩ := provides_quiet h2
    obtain ⟨w, p, o1, o2, -, o3, -⟩ := handleOutput_any (paired := paired) ((h1.same_send.pushes paired).layered hD) h4
    obtain ⟨o4, o5⟩ := o3 rfl
    refine ⟨⟨w, p, (h1.same_send.pushes paired).trans o1, ?_, ?_⟩, ?_, nofun, nofun, ?_⟩
    · refine Eq.trans (o2 : _) ?_
      congr 1
      exact congrArg (c.writeBuffer ++ ·) (same_waiting (c := c) (c' := { c with tls := tls, readBuffer := _, state := _ }) h1.same_send)
    · rw [List.map_append, List.append_assoc]
      refine (provides_accepted h2).append ?_ (by simp)
      cases io with
      | needMoreInput => simp [outputBytes] at o5
      | output b =>
        have := Accepted.part (T := [FullItem.stream (.returned (.error .io) : StreamItem ε ev ι)]) o4 o5 (accepted_nothing (by simp))
        simpa [outputBytes] using this
    · rw [streamPart_append, streamPart_map, streamWrote_append, streamWrote_append, d2]; rfl
    · rcases h2 with ⟨-, -, rfl⟩ | ⟨-, -, rfl⟩ <;> simp

theorem Stepped.push {paired : K → K → Prop} {M : Machine σ ε ev ι} {c c' : FullStream K σ} {T : List (FullItem ε ev ι)}
    (h : Stepped M c c' T) (hD : Layered paired c.tls) (hf : c.ctl = .at .flushing → c.waiting = []) :
    PushStep paired c c' T := by
  have hcall : ∀ {c0 : FullStream K σ} {x : StreamItem ε ev ι} {T0}, Advanced M c0 c' T0 → c0.tls = c.tls →
      (∀ r, x ≠ .poll r) → c.pending = streamWrote [x] ++ c0.pending → PushStep paired c c' (.stream x :: T0) := by
    intro c0 x T0 ha ht hx hp
    obtain ⟨⟨w, p, a1, a2, a3⟩, a4, a5, a6, a7⟩ := ha.push (paired := paired) (ht ▸ hD)
    refine ⟨⟨w, p, ht ▸ a1, ?_, .other (fun b he => hx _ (FullItem.stream.inj he)) a3⟩, a5, fun h => (a6 h).elim, nofun⟩
    rw [streamPart_cons, show x :: streamPart T0 = [x] ++ streamPart T0 from rfl, streamWrote_append, a4, a2, hp]
    simp
  have hstay : ∀ {x y : StreamItem ε ev ι}, c' = { c with ctl := .at .idle } → (∀ r, x ≠ .poll r) → (∀ r, y ≠ .poll r) →
      streamWrote [x, y] = [] → PushStep paired c c' [.stream x, .stream y] := by
    rintro x y rfl hx hy hw
    refine ⟨⟨[], [], .refl .., ?_, accepted_nothing ?_⟩, nofun, nofun, nofun⟩
    · rw [streamPart_cons, streamPart_cons]
      simp only [streamPart, List.filterMap_nil, hw]
      simp [pending, waiting]
    · intro b hm
      simp only [List.mem_cons, FullItem.stream.injEq, List.not_mem_nil, or_false] at hm
      rcases hm with hm | hm
      · exact hx _ hm.symm
      · exact hy _ hm.symm
  cases h with
  | user h1 h2 h3 =>
    subst h3
    refine ⟨⟨[], [], .refl .., ?_, accepted_nothing (by simp)⟩, fun h => ?_, hf, nofun⟩
    · simp [streamPart, FullItem.stream?, streamWrote, pending, waiting]
    · cases h1.symm.trans h
  | userPanic h1 h2 h3 =>
    subst h3
    refine ⟨⟨[], [], .refl .., ?_, accepted_nothing (by simp)⟩, nofun, nofun, nofun⟩
    simp [streamPart, FullItem.stream?, streamWrote, pending, waiting]
  | callNext h1 h2 => exact hcall h2 rfl nofun rfl
  | read h1 h2 h3 => exact hcall h3 rfl nofun rfl
  | written h1 h2 h3 h4 => exact hcall h4 rfl nofun (by simp [pending, waiting, streamWrote, h3])
  | @wrote b rest T h1 h2 h3 h4 =>
    rcases h4 with ⟨h4, rfl, rfl⟩ | ⟨h4, rfl, rfl, rfl⟩
    · refine ⟨⟨[], [], .refl .., ?_, accepted_nothing (by simp)⟩, fun h => ?_, hf, nofun⟩
      · rw [streamPart_map]; simp [streamWrote, pending, waiting, h3]
      · rcases h1 with h1 | h1 <;> cases h1.symm.trans h
    · refine ⟨⟨[], [], .refl .., ?_, accepted_nothing (by simp)⟩, nofun, nofun, nofun⟩
      rw [streamPart_map]; simp [streamWrote, pending, waiting, h3]
  | @flush c1 ok T h1 h2 h3 =>
    obtain ⟨w, p, o1, o2, o3, o4, o5⟩ := handleOutput_any (paired := paired) hD h2
    have hok : ok = true := by
      cases ok with
      | true => rfl
      | false => have := (o4 rfl).2; simp at this
    obtain ⟨rfl, o6⟩ := o3 hok
    rcases h3 with ⟨h3, rfl, rfl⟩ | ⟨h3, rfl, rfl⟩
    · refine ⟨⟨w, [], o1, ?_, accepted_nothing (by simp)⟩, fun h => ?_, fun _ => o6, nofun⟩
      · rw [streamPart_map]; simpa [streamWrote] using o2
      · cases (o5.trans h1).symm.trans h
    · refine ⟨⟨w, [], o1, ?_, accepted_nothing (by simp)⟩, nofun, fun _ => o6, nofun⟩
      rw [streamPart_map]; simpa [streamWrote, pending, waiting] using o2
  | ended h1 h2 =>
    rcases h2 with ⟨-, rfl, rfl⟩ | ⟨-, rfl, rfl⟩ | ⟨-, rfl, rfl⟩ | ⟨-, rfl, rfl⟩ | ⟨-, rfl, rfl⟩ <;>
      exact hstay h1 nofun nofun rfl
  | dropped h1 h2 =>
    subst h2
    refine ⟨⟨[], [], .refl .., ?_, accepted_nothing (by simp)⟩, nofun, nofun, nofun⟩
    simp [streamPart, FullItem.stream?, streamWrote, pending, waiting]

theorem Advanced.no_flushed {M : Machine σ ε ev ι} {c c' : FullStream K σ} {T : List (FullItem ε ev ι)}
    (h : Advanced M c c' T) (r : Except (StreamError Empty) Unit) : .stream (.flushed r) ∉ T := by
  intro hm
  cases h with
  | hung => simp at hm
  | broken => simp at hm
  | inputPanic => simp at hm
  | nextPanic _ g => have := (provides_quiet g).2.2.2.2 r; simp [this] at hm
  | @returned _ _ _ _ _ _ x _ g =>
    have := (provides_quiet g).2.2.2.2 r
    have := (poll_items (ι := ι) x).2.2.2.2 r
    simp_all
  | waits _ g => have := (provides_quiet g).2.2.2.2 r; simp [this] at hm
  | refused _ g => have := (provides_quiet g).2.2.2.2 r; simp [this] at hm

/-- When `flush` succeeds nothing is on the way any more. -/
theorem Stepped.flushed_all {paired : K → K → Prop} {M : Machine σ ε ev ι} {c c' : FullStream K σ}
    {q q' : List (FullItem ε ev ι)} (h : Stepped M c c' (q ++ .stream (.flushed (.ok ())) :: q')) (hD : Layered paired c.tls)
    (hf : c.ctl = .at .flushing → c.waiting = []) : c'.pending = [] ∧ q' = [] := by
  generalize hT : q ++ FullItem.stream (.flushed (.ok ())) :: q' = U at h
  have hm : FullItem.stream (.flushed (.ok ())) ∈ U := by rw [← hT]; simp
  cases h with
  | user => simp at hm
  | userPanic => simp at hm
  | callNext _ g => simp [g.no_flushed] at hm
  | read _ _ g => simp [g.no_flushed] at hm
  | written _ _ _ g => simp [g.no_flushed] at hm
  | wrote _ _ _ g =>
    rcases g with ⟨-, rfl, -⟩ | ⟨hc, -, rfl, rfl⟩
    · simp at hm
    · refine ⟨?_, ?_⟩
      · simpa [pending, waiting] using hf hc
      · rcases q with _ | ⟨_, _ | ⟨_, _⟩⟩ <;> simp at hT
        exact hT.2
  | @flush c1 ok T _ h2 g =>
    obtain ⟨w, p, o1, o2, o3, o4, o5⟩ := handleOutput_any (paired := paired) hD h2
    have hok : ok = true := by
      cases ok with
      | true => rfl
      | false => have := (o4 rfl).2; simp at this
    rcases g with ⟨h3, rfl, rfl⟩ | ⟨-, rfl, -⟩
    · refine ⟨by simp [pending, h3, (o3 hok).2], ?_⟩
      rcases q with _ | ⟨_, _ | ⟨_, _⟩⟩ <;> simp at hT
      exact hT.2
    · simp at hm
  | ended _ g =>
    rcases g with ⟨-, rfl, rfl⟩ | ⟨-, rfl, rfl⟩ | ⟨-, rfl, rfl⟩ | ⟨-, rfl, rfl⟩ | ⟨-, rfl, rfl⟩ <;> simp at hm
  | dropped => simp at hm

theorem run_push {paired : K → K → Prop} {M : Machine σ ε ev ι} {as : List (StreamAct ι)} {c c' : FullStream K σ}
    {T : List (FullItem ε ev ι)} (h : run M c as = some (c', T)) (hD : Layered paired c.tls)
    (hr : c.ctl = .at .reading → c.pending = []) (hf : c.ctl = .at .flushing → c.waiting = []) :
    PushStep paired c c' T := by
  induction as generalizing c T with
  | nil =>
    cases h
    exact ⟨⟨[], [], .refl .., by simp [streamPart, streamWrote], .nil⟩, hr, hf, nofun⟩
  | cons a as ih =>
    obtain ⟨c1, T1, T2, h1, h2, rfl⟩ := run_cons h
    obtain ⟨⟨w1, p1, s1, s2, s3⟩, s4, s5, s6⟩ := (step_cases h1).push (paired := paired) hD hf
    obtain ⟨⟨w2, p2, r1, r2, r3⟩, r4, r5, r6⟩ := ih h2 (s1.layered hD) s4 s5
    refine ⟨⟨w1 ++ w2, p1 ++ p2, s1.trans r1, ?_, s3.append r3 r6⟩, r4, r5, ?_⟩
    · rw [streamPart_append, streamWrote_append, List.append_assoc, r2, ← List.append_assoc, s2, List.append_assoc]
    · cases T1 with
      | nil => exact r6
      | cons => exact s6

end FullStream

end ImapFlow
