import Verif.Spec.TlsRecords

/-!
# Lemmas about `decrypt` and `encrypt`
-/

namespace ImapFlow

variable {K : Type}

theorem plaintext_append (cs ds : List RecordContent) : plaintext (cs ++ ds) = plaintext cs ++ plaintext ds := by
  induction cs with
  | nil => rfl
  | cons c cs ih => cases c <;> simp [plaintext, ih]

theorem plaintext_data (ds : List Bytes) : plaintext (ds.map .data) = ds.flatten := by
  induction ds with
  | nil => rfl
  | cons d ds ih => simp [plaintext, ih]

namespace RecordLayer

variable {R : RecordLayer K}

theorem Carries.append {k k' k'' : K} {as bs : Bytes} {cs ds : List RecordContent} (h1 : R.Carries k as cs k')
    (h2 : R.Carries k' bs ds k'') : R.Carries k (as ++ bs) (cs ++ ds) k'' := by
  induction h1 with
  | nil => exact h2
  | cons h _ ih => rw [List.append_assoc]; exact .cons h (ih h2)

/-- The first record of some bytes. -/
theorem Receives.first (hR : R.Receives) {k k' : K} {r : Bytes} {c : RecordContent}
    (h : R.unprotect k r = .record k' r.length c) (more : Bytes) : R.unprotect k (r ++ more) = .record k' r.length c := by
  have := hR.exact h more
  rwa [List.take_length] at this

end RecordLayer

namespace Tls

variable {R : RecordLayer K}

theorem openAll_incomplete {k : K} {bs : Bytes} (h : R.unprotect k bs = .incomplete) :
    openAll R k bs = some (k, bs, [], false) := by
  rw [openAll]; simp [h]

theorem openAll_first (hR : R.Receives) {k k' : K} {r : Bytes} {c : RecordContent}
    (h : R.unprotect k r = .record k' r.length c) (more : Bytes) :
    openAll R k (r ++ more) =
      match c with
      | .closeNotify => some (k', [], [], true)
      | .data bytes =>
        match openAll R k' more with
        | none => none
        | some (k, rest, plain, closed) => some (k, rest, bytes ++ plain, closed)
      | .other => openAll R k' more := by
  have h1 := hR.first h more
  have h2 := hR.bounds h
  rw [openAll]
  simp only [h1]
  rw [dif_pos ⟨h2.1, by simp⟩]
  cases c with
  | closeNotify => rfl
  | other => simp
  | data d => simp only [List.drop_left]; cases openAll R k' more <;> rfl

/-- Opening complete records and the beginning of another one. -/
theorem openAll_carries (hR : R.Receives) {k k' : K} {bs : Bytes} {cs : List RecordContent}
    (h : R.Carries k bs cs k') (hc : RecordContent.closeNotify ∉ cs) {p : Bytes} (hp : R.unprotect k' p = .incomplete) :
    openAll R k (bs ++ p) = some (k', p, plaintext cs, false) := by
  induction h with
  | nil => simpa [plaintext] using openAll_incomplete hp
  | @cons k k1 k2 r bs c cs h _ ih =>
    rw [List.append_assoc, openAll_first hR h]
    have h3 := ih (fun h => hc (List.mem_cons_of_mem _ h)) hp
    cases c with
    | closeNotify => simp at hc
    | data d => simp [h3, plaintext]
    | other => simp [h3, plaintext]

/-- Opening records with a `close_notify`. -/
theorem openAll_closed (hR : R.Receives) {k k' : K} {bs : Bytes} {cs : List RecordContent}
    (h : R.Carries k bs cs k') (hc : RecordContent.closeNotify ∈ cs) (more : Bytes) :
    ∃ k1 p, openAll R k (bs ++ more) = some (k1, [], p, true) := by
  induction h with
  | nil => cases hc
  | @cons k k1 k2 r bs c cs h _ ih =>
    rw [List.append_assoc, openAll_first hR h]
    cases c with
    | closeNotify => exact ⟨_, _, rfl⟩
    | data d =>
      obtain ⟨k3, p, h3⟩ := ih (by simpa using hc)
      exact ⟨k3, d ++ p, by simp [h3]⟩
    | other =>
      obtain ⟨k3, p, h3⟩ := ih (by simpa using hc)
      exact ⟨k3, p, by simp [h3]⟩

/-- Opening records followed by a broken one. -/
theorem openAll_invalid (hR : R.Receives) {k k' : K} {bs : Bytes} {cs : List RecordContent}
    (h : R.Carries k bs cs k') (hc : RecordContent.closeNotify ∉ cs) {p : Bytes} (hp : R.unprotect k' p = .invalid) :
    openAll R k (bs ++ p) = none := by
  induction h with
  | nil => rw [openAll]; simp [hp]
  | @cons k k1 k2 r bs c cs h _ ih =>
    rw [List.append_assoc, openAll_first hR h]
    have h3 := ih (fun h => hc (List.mem_cons_of_mem _ h)) hp
    cases c with
    | closeNotify => simp at hc
    | data d => simp [h3]
    | other => simp [h3]

/-- The first bytes of complete records are complete records and the beginning of another one. -/
theorem carries_prefix (hR : R.Receives) {k k' : K} {bs : Bytes} {cs : List RecordContent} (h : R.Carries k bs cs k')
    {x y : Bytes} (hx : bs = x ++ y) :
    ∃ r1 p r2 cs1 cs2 k1, x = r1 ++ p ∧ bs = r1 ++ r2 ∧ cs = cs1 ++ cs2 ∧ R.Carries k r1 cs1 k1 ∧
      R.Carries k1 r2 cs2 k' ∧ R.unprotect k1 p = .incomplete := by
  induction h generalizing x with
  | nil k =>
    refine ⟨[], [], [], [], [], k, ?_, rfl, rfl, .nil _, .nil _, hR.empty _⟩
    cases x with
    | nil => rfl
    | cons => cases hx
  | @cons k k1 k2 r bs c cs h hrest ih =>
    by_cases hl : x.length < r.length
    · refine ⟨[], x, r ++ bs, [], c :: cs, k, rfl, rfl, rfl, .nil _, .cons h hrest, ?_⟩
      have h1 := hR.partly h x.length hl
      have h2 : r.take x.length = x := by
        have := congrArg (List.take x.length) hx
        simpa [List.take_append_of_le_length (Nat.le_of_lt hl)] using this
      rwa [h2] at h1
    · have h2 : x = r ++ x.drop r.length := by
        have := congrArg (List.take r.length) hx
        rw [List.take_left, List.take_append_of_le_length (by omega)] at this
        conv => lhs; rw [← List.take_append_drop r.length x, ← this]
      rw [h2, List.append_assoc] at hx
      obtain ⟨r1, p, r2, cs1, cs2, k3, e1, e2, e3, h3, h4, h5⟩ := ih (List.append_cancel_left hx)
      refine ⟨r ++ r1, p, r2, c :: cs1, cs2, k3, ?_, ?_, ?_, .cons h h3, h4, h5⟩
      · rw [h2, e1, List.append_assoc]
      · rw [e2, List.append_assoc]
      · rw [e3]; rfl

end Tls

namespace DecryptState

theorem steps_add (m n : Nat) (s : DecryptState K) : s.steps (m + n) = (s.steps m).steps n := by
  induction m generalizing s with
  | zero => simp [steps]
  | succ m ih => rw [Nat.add_right_comm]; exact ih s.step

theorem steps_done (n : Nat) (r : Except TlsError (Tls K × Bytes × Bytes)) :
    (done r : DecryptState K).steps n = done r := by
  induction n with
  | zero => rfl
  | succ n ih => exact ih

/-- The result is unique. -/
theorem Ends.unique {s : DecryptState K} {r r' : Except TlsError (Tls K × Bytes × Bytes)} (h : s.Ends r)
    (h' : s.Ends r') : r = r' := by
  obtain ⟨m, h⟩ := h
  obtain ⟨n, h'⟩ := h'
  have h1 : s.steps (m + n) = done r := by rw [steps_add, h, steps_done]
  have h2 : s.steps (n + m) = done r' := by rw [steps_add, h', steps_done]
  rw [Nat.add_comm, h1] at h2
  injection h2

theorem Ends.of_steps {s : DecryptState K} {r : Except TlsError (Tls K × Bytes × Bytes)} (n : Nat)
    (h : (s.steps n).Ends r) : s.Ends r := by
  obtain ⟨m, h⟩ := h
  exact ⟨n + m, by rw [steps_add, h]⟩

/-- The inner loop passes on all received plaintext. -/
theorem inner_drains (t : Tls K) (rb acc : Bytes) (h : t.closed = false) :
    ∃ n, (inner t rb acc).steps n = outer { t with plain := [] } rb (acc ++ t.plain) := by
  generalize hl : t.plain.length = l
  induction l using Nat.strongRecOn generalizing t acc with
  | ind l ih =>
    by_cases hp : t.plain = []
    · refine ⟨1, ?_⟩
      cases t
      simp only at h hp
      subst h hp
      simp [steps, step, Tls.read]
    · have hs : (inner t rb acc).step =
          inner { t with plain := t.plain.drop chunkSize } rb (acc ++ t.plain.take chunkSize) := by
        simp [step, Tls.read, hp]
      have hpos : 0 < t.plain.length := List.length_pos_iff.2 hp
      obtain ⟨n, hn⟩ := ih (t.plain.drop chunkSize).length (by simp [chunkSize]; omega)
        { t with plain := t.plain.drop chunkSize } (acc ++ t.plain.take chunkSize) h rfl
      refine ⟨n + 1, ?_⟩
      simp only [steps, hs, hn]
      simp

/-- The inner loop was entered after `close_notify`. -/
def Stuck : DecryptState K → Prop
  | inner t _ _ => t.closed = true
  | _ => False

theorem Stuck.step {s : DecryptState K} (h : s.Stuck) : s.step.Stuck := by
  cases s with
  | outer => cases h
  | done => cases h
  | inner t rb acc =>
    simp only [Stuck] at h
    by_cases hp : t.plain.isEmpty <;> simp [DecryptState.step, Tls.read, hp, h, Stuck]

theorem Stuck.steps {s : DecryptState K} (h : s.Stuck) (n : Nat) : (s.steps n).Stuck := by
  induction n generalizing s with
  | zero => exact h
  | succ n ih => exact ih h.step

/-- Once the inner loop is stuck, `decrypt` does not end. -/
theorem Stuck.not_ends {s : DecryptState K} (n : Nat) (h : (s.steps n).Stuck)
    (r : Except TlsError (Tls K × Bytes × Bytes)) : ¬ s.Ends r := by
  rintro ⟨m, hm⟩
  have h1 : s.steps (m + n) = done r := by rw [steps_add, hm, steps_done]
  have h2 := h.steps m
  rw [← steps_add, Nat.add_comm, h1] at h2
  exact h2

/-- One iteration of the outer loop up to the inner loop. -/
theorem outer_step {t : Tls K} {rb acc : Bytes} (hp : t.plain = []) (hc : t.closed = false) (hrb : rb ≠ []) :
    (outer t rb acc).step =
      match Tls.openAll t.layer t.readKey (t.raw ++ rb.take (min t.readSize rb.length)) with
      | none => done (.error .tls)
      | some (readKey, raw, plain, closed) =>
        inner { t with readKey, raw, plain, closed } (rb.drop (min t.readSize rb.length)) acc := by
  simp only [step, Tls.wantsRead, hp, hc, Tls.readTls, Tls.processNewPackets]
  simp only [List.isEmpty_nil, Bool.not_false, Bool.and_self, List.isEmpty_eq_false_iff.2 hrb, if_true]
  cases Tls.openAll t.layer t.readKey (t.raw ++ rb.take (min t.readSize rb.length)) with
  | none => rfl
  | some x => obtain ⟨a, b, c, d⟩ := x; simp

/-- One iteration of the outer loop and the inner loop, if no `close_notify` was received. -/
theorem outer_round {t : Tls K} {rb acc : Bytes} (hp : t.plain = []) (hc : t.closed = false) (hrb : rb ≠ [])
    {k : K} {raw plain : Bytes}
    (ho : Tls.openAll t.layer t.readKey (t.raw ++ rb.take (min t.readSize rb.length)) = some (k, raw, plain, false)) :
    ∃ n, (outer t rb acc).steps n =
      outer { t with readKey := k, raw } (rb.drop (min t.readSize rb.length)) (acc ++ plain) := by
  obtain ⟨n, hn⟩ := inner_drains { t with readKey := k, raw, plain, closed := false }
    (rb.drop (min t.readSize rb.length)) acc rfl
  refine ⟨n + 1, ?_⟩
  simp only [steps, outer_step hp hc hrb, ho, hn]
  cases t
  simp only at hp hc
  subst hp hc
  rfl

end DecryptState

namespace Tls

variable {R : RecordLayer K}

/-- The new input starts with complete records and the beginning of another one. -/
theorem take_split (hR : R.Receives) {k k' : K} {bs part x y : Bytes} {cs : List RecordContent}
    (h : R.Carries k bs cs k') (hp : R.unprotect k' part = .incomplete) (hx : bs ++ part = x ++ y) :
    ∃ r1 p r2 cs1 cs2 k1, x = r1 ++ p ∧ bs = r1 ++ r2 ∧ p ++ y = r2 ++ part ∧ cs = cs1 ++ cs2 ∧ R.Carries k r1 cs1 k1 ∧
      R.Carries k1 r2 cs2 k' ∧ R.unprotect k1 p = .incomplete := by
  by_cases hl : x.length ≤ bs.length
  · obtain ⟨z, hz⟩ : ∃ z, bs = x ++ z := by
      refine ⟨bs.drop x.length, ?_⟩
      have h1 := congrArg (List.take x.length) hx
      rw [List.take_left, List.take_append_of_le_length hl] at h1
      conv => lhs; rw [← List.take_append_drop x.length bs, h1]
    obtain ⟨r1, p, r2, cs1, cs2, k1, e1, e2, e3, h1, h2, h3⟩ := carries_prefix hR h hz
    refine ⟨r1, p, r2, cs1, cs2, k1, e1, e2, ?_, e3, h1, h2, h3⟩
    rw [e1, e2, List.append_assoc, List.append_assoc] at hx
    exact (List.append_cancel_left hx).symm
  · have h1 : x = bs ++ x.drop bs.length := by
      have h2 := congrArg (List.take bs.length) hx
      rw [List.take_left, List.take_append_of_le_length (by omega)] at h2
      conv => lhs; rw [← List.take_append_drop bs.length x, ← h2]
    have h2 : part = x.drop bs.length ++ y := by
      rw [h1, List.append_assoc] at hx
      exact List.append_cancel_left hx
    refine ⟨bs, x.drop bs.length, [], cs, [], k', h1, by simp, by simp [← h2], by simp, h, .nil _, ?_⟩
    have h3 := hR.incomplete hp (x.drop bs.length).length
    rwa [h2, List.take_left] at h3

theorem drainWrites_eq (t : Tls K) : t.drainWrites = ({ t with sendable := [] }, t.sendable.flatten) := by
  generalize hs : t.sendable = l
  induction l generalizing t with
  | nil => rw [drainWrites]; cases t; simp_all [wantsWrite]
  | cons r rs ih =>
    have h1 : t.writeTls = ({ t with sendable := rs }, r) := by simp [writeTls, hs]
    have h2 := ih { t with sendable := rs } rfl
    rw [drainWrites, dif_pos (by simp [wantsWrite, hs])]
    simp [h1, h2]

/-- The connection after `bytes` were sealed. -/
def sealed (t : Tls K) (bytes : Bytes) : Tls K :=
  { t with writeKey := (t.layer.protect t.writeKey bytes).1
           sendable := t.sendable ++ (t.layer.protect t.writeKey bytes).2 }

theorem write_eq (t : Tls K) {bytes : Bytes} (h : min bytes.length t.space ≠ 0) :
    t.write bytes = (t.sealed (bytes.take (min bytes.length t.space)), min bytes.length t.space) := by
  simp only [write]
  rw [if_neg h]
  rfl

theorem writeAll_fits (t : Tls K) {bytes : Bytes} (hne : bytes ≠ []) (h : bytes.length ≤ t.space) :
    t.writeAll bytes = (t.sealed bytes, .ok ()) := by
  cases bytes with
  | nil => exact absurd rfl hne
  | cons b bs =>
    have hm : min (b :: bs).length t.space = bs.length + 1 := by rw [Nat.min_eq_left h]; rfl
    have hw := write_eq t (bytes := b :: bs) (by rw [hm]; omega)
    rw [hm, show bs.length + 1 = (b :: bs).length from rfl, List.take_length] at hw
    rw [writeAll, hw]
    simp [writeAll]

theorem writeAll_too_long {paired : K → K → Prop} (t : Tls K) (hR : t.layer.Delivers paired) {bytes : Bytes}
    (h : t.space < bytes.length) :
    t.writeAll bytes = (if t.space = 0 then t else t.sealed (bytes.take t.space), .error .io) := by
  cases bytes with
  | nil => simp at h
  | cons b bs =>
    have hm : min (b :: bs).length t.space = t.space := Nat.min_eq_right (Nat.le_of_lt h)
    by_cases h0 : t.space = 0
    · have hw : t.write (b :: bs) = (t, 0) := by simp [write, h0]
      rw [writeAll, hw]
      simp [h0]
    · have hw := write_eq t (bytes := b :: bs) (by rw [hm]; exact h0)
      rw [hm] at hw
      obtain ⟨n, hn⟩ : ∃ n, t.space = n + 1 := ⟨t.space - 1, by omega⟩
      rw [writeAll, hw, if_neg h0]
      rw [hn] at h ⊢
      simp only
      have hsp : (t.sealed ((b :: bs).take (n + 1))).space = 0 := by
        have h1 := hR.length t.writeKey ((b :: bs).take (n + 1))
        rw [List.length_take] at h1
        simp only [space] at hn
        simp only [space, sealed, List.flatten_append, List.length_append]
        omega
      cases hd : bs.drop n with
      | nil =>
        have := congrArg List.length hd
        simp only [List.length_drop, List.length_nil, List.length_cons] at this h
        omega
      | cons c cs =>
        rw [writeAll]
        have : (t.sealed ((b :: bs).take (n + 1))).write (c :: cs) = (t.sealed ((b :: bs).take (n + 1)), 0) := by
          simp only [write, hsp, Nat.min_zero, if_true]
        rw [this]

end Tls

end ImapFlow
