import Verif.Proofs.FullStreamIo
import Verif.Spec.FullTrace
import Verif.Props.C34

/-!
# Plaintext and records of the whole stream
-/

namespace ImapFlow

variable {K σ ε ev ι : Type}

theorem streamPart_append (T U : List (FullItem ε ev ι)) : streamPart (T ++ U) = streamPart T ++ streamPart U := by
  simp [streamPart]

theorem streamPart_cons (i : StreamItem ε ev ι) (T : List (FullItem ε ev ι)) :
    streamPart (.stream i :: T) = i :: streamPart T := by
  simp [streamPart, FullItem.stream?]

theorem streamPart_map (T : List (StreamItem ε ev ι)) : streamPart (T.map .stream) = T := by
  simp [streamPart, FullItem.stream?, List.filterMap_map, Function.comp_def]

/-! ## Sending -/

/-- The records `out` carry `b`; the connection becomes another one.  Without TLS they are `b`. -/
def Sends (paired : K → K → Prop) : Option (Tls K) → Option (Tls K) → Bytes → Bytes → Prop
  | none, none, b, out => out = b
  | some t, some t', b, out => t'.layer = t.layer ∧ t'.limit = t.limit ∧ t'.sendable = [] ∧
      ∀ kr, paired t.writeKey kr → ∃ (ds : List Bytes) (kr' : K), t.layer.Carries kr out (ds.map .data) kr' ∧ ds.flatten = b ∧
        paired t'.writeKey kr'
  | _, _, _, _ => False

/-- No records are waiting in the connection. -/
def Sender (paired : K → K → Prop) (tls : Option (Tls K)) : Prop :=
  ∀ t, tls = some t → t.layer.Delivers paired ∧ t.sendable = [] ∧ ∃ kr, paired t.writeKey kr

theorem Sends.sender {paired : K → K → Prop} {tls tls' : Option (Tls K)} {b out : Bytes} (h : Sends paired tls tls' b out)
    (hs : Sender paired tls) : Sender paired tls' := by
  intro t' ht'
  subst ht'
  cases tls with
  | none => exact h.elim
  | some t =>
    obtain ⟨h1, -, h2, h3⟩ := h
    obtain ⟨h4, -, kr, h5⟩ := hs t rfl
    obtain ⟨_, kr', -, -, h6⟩ := h3 kr h5
    exact ⟨h1 ▸ h4, h2, kr', h6⟩

theorem Sends.trans {paired : K → K → Prop} {t1 t2 t3 : Option (Tls K)} {b1 b2 o1 o2 : Bytes} (h1 : Sends paired t1 t2 b1 o1)
    (h2 : Sends paired t2 t3 b2 o2) : Sends paired t1 t3 (b1 ++ b2) (o1 ++ o2) := by
  cases t1 with
  | none =>
    cases t2 with
    | some => exact h1.elim
    | none =>
      cases t3 with
      | some => exact h2.elim
      | none => cases h1; cases h2; rfl
  | some t1 =>
    cases t2 with
    | none => exact h1.elim
    | some t2 =>
      cases t3 with
      | none => exact h2.elim
      | some t3 =>
        obtain ⟨a1, a2, a3, a4⟩ := h1
        obtain ⟨b1, b2, b3, b4⟩ := h2
        refine ⟨b1.trans a1, b2.trans a2, b3, fun kr hk => ?_⟩
        obtain ⟨ds1, kr1, c1, c2, c3⟩ := a4 kr hk
        obtain ⟨ds2, kr2, d1, d2, d3⟩ := b4 kr1 c3
        refine ⟨ds1 ++ ds2, kr2, ?_, by simp [c2, d2], d3⟩
        rw [List.map_append]
        exact c1.append (a1 ▸ d1)

/-- The connections send alike. -/
def SameSend : Option (Tls K) → Option (Tls K) → Prop
  | none, none => True
  | some t, some t' => t'.layer = t.layer ∧ t'.limit = t.limit ∧ t'.sendable = t.sendable ∧ t'.writeKey = t.writeKey
  | _, _ => False

theorem SameSend.refl (tls : Option (Tls K)) : SameSend tls tls := by
  cases tls <;> simp [SameSend]

theorem SameSend.sends {paired : K → K → Prop} {tls tls' : Option (Tls K)} (h : SameSend tls tls') (hs : Sender paired tls) :
    Sends paired tls tls' [] [] := by
  cases tls with
  | none => cases tls' with | none => exact (rfl : ([] : Bytes) = []) | some => exact h.elim
  | some t =>
    cases tls' with
    | none => exact h.elim
    | some t' =>
      obtain ⟨h1, h2, h3, h4⟩ := h
      exact ⟨h1, h2, h3.trans (hs t rfl).2.1, fun kr hk => ⟨[], kr, .nil _, rfl, h4 ▸ hk⟩⟩

theorem Sends.refl {paired : K → K → Prop} {tls : Option (Tls K)} (hs : Sender paired tls) :
    Sends paired tls tls [] [] := (SameSend.refl tls).sends hs

theorem decrypt_same_send {t t' : Tls K} {rb acc rest b : Bytes} (h : t.decrypt rb acc = .ok t' rest b) :
    t'.layer = t.layer ∧ t'.limit = t.limit ∧ t'.sendable = t.sendable ∧ t'.writeKey = t.writeKey ∧
      t'.readSize = t.readSize := by
  fun_induction Tls.decrypt t rb acc with
  | case1 => cases h
  | case2 => cases h
  | case3 t rb acc hw hn t1 hp hc ih =>
    have := ih h
    simp only [Tls.processNewPackets, Tls.readTls] at hp
    split at hp
    · cases hp
    · cases hp; exact this
  | case4 => cases h
  | case5 => cases h; exact ⟨rfl, rfl, rfl, rfl, rfl⟩

namespace FullStream

theorem Takes.same_send {c : FullStream K σ} {tls : Option (Tls K)} {rest b : Bytes} (h : c.Takes tls rest b) :
    SameSend c.tls tls := by
  cases h with
  | plain h => rw [h]; trivial
  | tls h hd =>
    rw [h]
    obtain ⟨h1, h2, h3, h4, -⟩ := decrypt_same_send hd
    exact ⟨h1, h2, h3, h4⟩

/-- `encrypt` succeeds. -/
theorem handleOutput_true {paired : K → K → Prop} {c c1 : FullStream K σ} {b : Bytes} (hs : Sender paired c.tls)
    (h : c.handleOutput b = (c1, true)) :
    ∃ out, Sends paired c.tls c1.tls b out ∧ c1.writeBuffer = c.writeBuffer ++ out ∧
      c1.readBuffer = c.readBuffer ∧ c1.state = c.state ∧ c1.ctl = c.ctl := by
  unfold handleOutput at h
  cases ht : c.tls with
  | none =>
    rw [ht] at h
    cases h
    exact ⟨b, (rfl : b = b), rfl, rfl, rfl, rfl⟩
  | some t =>
    rw [ht] at h
    simp only at h
    obtain ⟨hD, hse, kr, hk⟩ := hs t ht
    by_cases hl : b.length ≤ t.limit
    · obtain ⟨t', out, -, -, h1, h2, h3, h4, -⟩ := C34_partial hD hk hse c.writeBuffer hl
      rw [h1] at h
      cases h
      refine ⟨out, ⟨h3, h4, h2, fun kr hk => ?_⟩, rfl, rfl, rfl, rfl⟩
      obtain ⟨t'', out', ds, kr', h1', -, -, -, h5, h6, h7⟩ := C34_partial hD hk hse c.writeBuffer hl
      rw [h1] at h1'
      have e := Prod.mk.inj h1'
      have e2 := List.append_cancel_left (Prod.mk.inj e.2).1
      rw [← e.1] at h7
      rw [← e2] at h5
      exact ⟨ds, kr', h5, h6, h7⟩
    · obtain ⟨t', h1⟩ := C34_too_long hD c.writeBuffer (Nat.lt_of_not_le hl)
      rw [h1] at h
      cases h

/-- `encrypt` fails. -/
theorem handleOutput_false {paired : K → K → Prop} {c c1 : FullStream K σ} {b : Bytes} (hs : Sender paired c.tls)
    (h : c.handleOutput b = (c1, false)) : ∃ t, c.tls = some t ∧ t.limit < b.length := by
  unfold handleOutput at h
  cases ht : c.tls with
  | none => rw [ht] at h; cases h
  | some t =>
    rw [ht] at h
    simp only at h
    obtain ⟨hD, hse, kr, hk⟩ := hs t ht
    refine ⟨t, rfl, ?_⟩
    by_cases hl : b.length ≤ t.limit
    · obtain ⟨t', out, -, -, h1, -⟩ := C34_partial hD hk hse c.writeBuffer hl
      rw [h1] at h
      cases h
    · omega

/-- The effect of a step on the sending side. -/
structure SendStep (paired : K → K → Prop) (c c' : FullStream K σ) (T : List (FullItem ε ev ι)) : Prop where
  out : ∃ out, Sends paired c.tls c'.tls (streamOutput (streamPart T)) out ∧
    streamWrote (streamPart T) ++ c'.writeBuffer = c.writeBuffer ++ out
  reading : c'.ctl = .at .reading → c'.writeBuffer = []
  flushed : ∀ pre post, T = pre ++ .stream (.flushed (.ok ())) :: post → c'.writeBuffer = [] ∧ post = [] 

theorem provides_quiet {M : Machine σ ε ev ι} {b : Bytes} {s s1 : σ} {D : List (StreamItem ε ev ι)}
    (h : Provides M b s s1 D) : streamOutput D = [] ∧ streamWrote D = [] ∧ streamRead D = [] ∧ streamDelivered D = b ∧
      ∀ r, .flushed r ∉ D := by
  rcases h with ⟨rfl, -, rfl⟩ | ⟨-, -, rfl⟩ <;> simp [streamOutput, streamWrote, streamRead, streamDelivered]

theorem poll_items (r : Except (Interrupt ε) ev) :
    streamOutput (.poll r :: returns r : List (StreamItem ε ev ι)) =
        (match r with | .error (.io (.output b)) => b | _ => []) ∧
      streamWrote (.poll r :: returns r : List (StreamItem ε ev ι)) = [] ∧
      streamRead (.poll r :: returns r : List (StreamItem ε ev ι)) = [] ∧
      streamDelivered (.poll r :: returns r : List (StreamItem ε ev ι)) = [] ∧
      ∀ x, .flushed x ∉ (.poll r :: returns r : List (StreamItem ε ev ι)) := by
  rcases r with ((_ | b) | e) | e <;>
    simp [streamOutput, streamWrote, streamRead, streamDelivered, returns]

theorem Advanced.send {paired : K → K → Prop} {M : Machine σ ε ev ι} {c c' : FullStream K σ} {T : List (FullItem ε ev ι)}
    (h : Advanced M c c' T) (hs : Sender paired c.tls) (hr : .refused ∉ T) :
    (∃ out, Sends paired c.tls c'.tls (streamOutput (streamPart T)) out ∧ c'.writeBuffer = c.writeBuffer ++ out) ∧
      streamWrote (streamPart T) = [] ∧ (c'.ctl = .at .reading → c'.writeBuffer = []) ∧
      ∀ r, .stream (.flushed r) ∉ T := by
  cases h with
  | hung h1 h2 h3 => subst h3; exact ⟨⟨[], .refl hs, by simp⟩, rfl, nofun, by simp⟩
  | broken h1 h2 h3 => subst h3; exact ⟨⟨[], .refl hs, by simp⟩, rfl, nofun, by simp⟩
  | inputPanic h1 h2 h3 => subst h3; exact ⟨⟨[], h1.same_send.sends hs, by simp⟩, rfl, nofun, by simp⟩
  | nextPanic h1 h2 h3 h4 =>
    subst h4
    obtain ⟨d1, d2, -, -, d3⟩ := provides_quiet h2
    refine ⟨⟨[], ?_, by simp⟩, ?_, nofun, by simpa using d3⟩
    · rw [streamPart_append, streamPart_map, streamOutput_append, d1]
      exact h1.same_send.sends hs
    · rw [streamPart_append, streamPart_map, streamWrote_append, d2]
      rfl
  | @returned _ _ _ D _ _ r h1 h2 h3 h4 h5 =>
    subst h5
    obtain ⟨d1, d2, -, -, d3⟩ := provides_quiet h2
    obtain ⟨p1, p2, -, -, p3⟩ := poll_items (ι := ι) r
    refine ⟨⟨[], ?_, by simp⟩, ?_, nofun, ?_⟩
    · rw [streamPart_map, streamOutput_append, d1, p1]
      rcases r with ((_ | b) | e) | e
      · exact h1.same_send.sends hs
      · exact (h4 _ rfl).elim
      · exact h1.same_send.sends hs
      · exact h1.same_send.sends hs
    · rw [streamPart_map, streamWrote_append, d2, p2]; rfl
    · intro x hx
      simp only [List.mem_map, FullItem.stream.injEq, exists_eq_right, List.mem_append] at hx
      exact hx.elim (d3 x) (p3 x)
  | @waits _ _ _ D _ _ io c1 h1 h2 h3 h4 h5 =>
    subst h5
    obtain ⟨d1, d2, -, -, d3⟩ := provides_quiet h2
    obtain ⟨out, o1, o2, o3, o4, o5⟩ := handleOutput_true (paired := paired) ((h1.same_send.sends hs).sender hs) h4
    refine ⟨⟨out, ?_, o2⟩, ?_, ?_, ?_⟩
    · rw [streamPart_map, streamOutput_append, d1]
      have := (h1.same_send.sends hs).trans o1
      cases io <;> simpa [streamOutput, outputBytes] using this
    · rw [streamPart_map, streamWrote_append, d2]; rfl
    · simp only
      split
      · rename_i hw; exact fun _ => List.isEmpty_iff.1 hw
      · nofun
    · intro x hx
      simp only [List.mem_map, FullItem.stream.injEq, exists_eq_right, List.mem_append] at hx
      exact hx.elim (d3 x) (by simp)
  | refused => simp at hr

theorem Stepped.send {paired : K → K → Prop} {M : Machine σ ε ev ι} {c c' : FullStream K σ} {T : List (FullItem ε ev ι)}
    (h : Stepped M c c' T) (hs : Sender paired c.tls) (hw : c.ctl = .at .reading → c.writeBuffer = [])
    (hr : .refused ∉ T) : SendStep paired c c' T := by
  cases h with
  | user h1 h2 h3 =>
    subst h3
    exact ⟨⟨[], .refl hs, by simp [streamPart, FullItem.stream?, streamWrote]⟩, hw, by
      intro pre post he
      cases pre <;> simp at he⟩
  | userPanic h1 h2 h3 =>
    subst h3
    exact ⟨⟨[], .refl hs, by simp [streamPart, FullItem.stream?, streamWrote]⟩, nofun, by
      intro pre post he
      rcases pre with _ | ⟨_, _ | ⟨_, _⟩⟩ <;> simp at he⟩
  | callNext h1 h2 =>
    obtain ⟨⟨out, a1, a2⟩, a3, a4, a5⟩ := h2.send hs (by simpa using hr)
    refine ⟨⟨out, a1, ?_⟩, a4, ?_⟩
    · rw [streamPart_cons]
      show streamWrote (streamPart _) ++ _ = _
      rw [a3, a2]; rfl
    · intro pre post he
      cases pre with
      | nil => simp at he
      | cons x pre =>
        injection he with _ he
        exact (a5 (.ok ()) (by rw [he]; simp)).elim
  | read h1 h2 h3 =>
    obtain ⟨⟨out, a1, a2⟩, a3, a4, a5⟩ := h3.send hs (by simpa using hr)
    refine ⟨⟨out, a1, ?_⟩, a4, ?_⟩
    · rw [streamPart_cons]
      show streamWrote (streamPart _) ++ _ = _
      rw [a3, a2]; rfl
    · intro pre post he
      cases pre with
      | nil => simp at he
      | cons x pre =>
        injection he with _ he
        exact (a5 (.ok ()) (by rw [he]; simp)).elim
  | written h1 h2 h3 h4 =>
    obtain ⟨⟨out, a1, a2⟩, a3, a4, a5⟩ := h4.send hs (by simpa using hr)
    refine ⟨⟨out, a1, ?_⟩, a4, ?_⟩
    · rw [streamPart_cons]
      show (_ ++ streamWrote (streamPart _)) ++ _ = _
      rw [a3, a2, h3]; simp
    · intro pre post he
      cases pre with
      | nil => simp at he
      | cons x pre =>
        injection he with _ he
        exact (a5 (.ok ()) (by rw [he]; simp)).elim
  | wrote h1 h2 h3 h4 =>
    rcases h4 with ⟨h4, rfl, rfl⟩ | ⟨h4, rfl, rfl, rfl⟩
    · refine ⟨⟨[], .refl hs, ?_⟩, ?_, ?_⟩
      · rw [streamPart_map, h3]; simp [streamWrote]
      · intro h5
        rcases h1 with h1 | h1 <;> cases h1.symm.trans h5
      · intro pre post he
        rcases pre with _ | ⟨_, _ | ⟨_, _⟩⟩ <;> simp at he
    · refine ⟨⟨[], .refl hs, ?_⟩, nofun, ?_⟩
      · rw [streamPart_map, h3]; simp [streamWrote]
      · intro pre post he
        refine ⟨rfl, ?_⟩
        rcases pre with _ | ⟨_, _ | ⟨_, _⟩⟩ <;> simp at he
        exact he.2
  | @flush c1 ok T h1 h2 h3 =>
    have hok : ok = true := by
      cases ok with
      | true => rfl
      | false =>
        obtain ⟨t, -, h⟩ := handleOutput_false hs h2
        simp at h
    subst hok
    obtain ⟨out, o1, o2, o3, o4, o5⟩ := handleOutput_true hs h2
    rcases h3 with ⟨h3, rfl, rfl⟩ | ⟨h3, rfl, rfl⟩
    · refine ⟨⟨out, ?_, ?_⟩, fun _ => h3, ?_⟩
      · rw [streamPart_map]; exact o1
      · rw [streamPart_map]; simpa [streamWrote] using o2
      · intro pre post he
        refine ⟨h3, ?_⟩
        rcases pre with _ | ⟨_, _ | ⟨_, _⟩⟩ <;> simp at he
        exact he.2
    · refine ⟨⟨out, ?_, ?_⟩, nofun, ?_⟩
      · rw [streamPart_map]; exact o1
      · rw [streamPart_map]; simpa [streamWrote] using o2
      · intro pre post he
        rcases pre with _ | ⟨_, _ | ⟨_, _⟩⟩ <;> simp at he
  | ended h1 h2 =>
    subst h1
    refine ⟨⟨[], ?_, ?_⟩, nofun, ?_⟩
    · rcases h2 with ⟨-, rfl, rfl⟩ | ⟨-, rfl, rfl⟩ | ⟨-, rfl, rfl⟩ | ⟨-, rfl, rfl⟩ | ⟨-, rfl, rfl⟩ <;> exact .refl hs
    · rcases h2 with ⟨-, rfl, rfl⟩ | ⟨-, rfl, rfl⟩ | ⟨-, rfl, rfl⟩ | ⟨-, rfl, rfl⟩ | ⟨-, rfl, rfl⟩ <;>
        simp [streamPart, FullItem.stream?, streamWrote]
    · intro pre post he
      rcases h2 with ⟨-, rfl, rfl⟩ | ⟨-, rfl, rfl⟩ | ⟨-, rfl, rfl⟩ | ⟨-, rfl, rfl⟩ | ⟨-, rfl, rfl⟩ <;>
        rcases pre with _ | ⟨_, _ | ⟨_, _⟩⟩ <;> simp at he
  | dropped h1 h2 =>
    subst h2
    exact ⟨⟨[], .refl hs, by simp [streamPart, FullItem.stream?, streamWrote]⟩, nofun, by
      intro pre post he
      cases pre <;> simp at he⟩

end FullStream

/-! ## Receiving -/

/-- The input `b` makes the connection pass on `plain` and become another one. -/
def Feeds : Option (Tls K) → Option (Tls K) → Bytes → Bytes → Prop
  | none, none, b, plain => plain = b
  | some t, some t', b, plain => ∃ records part cs k, t.raw ++ b = records ++ part ∧
      t.layer.Carries t.readKey records cs k ∧ RecordContent.closeNotify ∉ cs ∧ t.layer.unprotect k part = .incomplete ∧
      plain = plaintext cs ∧ t' = { t with readKey := k, raw := part }
  | _, _, _, _ => False

/-- The connection can receive. -/
def Receiver (tls : Option (Tls K)) : Prop := ∀ t, tls = some t → t.layer.Receives ∧ t.Ready

theorem Feeds.receiver {tls tls' : Option (Tls K)} {b plain : Bytes} (h : Feeds tls tls' b plain) (hr : Receiver tls) :
    Receiver tls' := by
  intro t' ht'
  subst ht'
  cases tls with
  | none => exact h.elim
  | some t =>
    obtain ⟨records, part, cs, k, -, -, -, h1, -, rfl⟩ := h
    obtain ⟨h2, h3⟩ := hr t rfl
    exact ⟨h2, h3.plain, h3.open_, h3.readSize, h1⟩

/-- Nothing comes from no input. -/
theorem Feeds.nothing {tls tls' : Option (Tls K)} {plain : Bytes} (h : Feeds tls tls' [] plain) (hr : Receiver tls) :
    tls' = tls ∧ plain = [] := by
  cases tls with
  | none => cases tls' with | none => exact ⟨rfl, h⟩ | some => exact h.elim
  | some t =>
    cases tls' with
    | none => exact h.elim
    | some t' =>
      obtain ⟨records, part, cs, k, h1, h2, h3, h4, rfl, rfl⟩ := h
      obtain ⟨hR, hr⟩ := hr t rfl
      rw [List.append_nil] at h1
      cases h2 with
      | nil => rw [List.nil_append] at h1; rw [← h1]; exact ⟨rfl, rfl⟩
      | cons h _ =>
        have h5 := hr.raw
        rw [h1, List.append_assoc, hR.first h] at h5
        cases h5

theorem Feeds.zero {tls : Option (Tls K)} (hr : Receiver tls) : Feeds tls tls [] [] := by
  cases tls with
  | none => exact (rfl : ([] : Bytes) = [])
  | some t =>
    obtain ⟨hR, hr⟩ := hr t rfl
    exact ⟨[], t.raw, [], t.readKey, by simp, .nil _, by simp, hr.raw, rfl, rfl⟩

/-- Input that arrives in two pieces. -/
theorem Feeds.split {tls tls' : Option (Tls K)} {a b plain : Bytes} (h : Feeds tls tls' (a ++ b) plain)
    (hr : Receiver tls) :
    ∃ tls1 p1 p2, Feeds tls tls1 a p1 ∧ Feeds tls1 tls' b p2 ∧ plain = p1 ++ p2 := by
  cases tls with
  | none => cases tls' with | none => exact ⟨none, a, b, (rfl : a = a), (rfl : b = b), h⟩ | some => exact h.elim
  | some t =>
    cases tls' with
    | none => exact h.elim
    | some t' =>
      obtain ⟨records, part, cs, k, h1, h2, h3, h4, rfl, rfl⟩ := h
      obtain ⟨hR, hr⟩ := hr t rfl
      rw [← List.append_assoc] at h1
      obtain ⟨r1, p, r2, cs1, cs2, k1, e1, e2, e3, e4, f1, f2, f3⟩ := Tls.take_split hR h2 h4 h1.symm
      rw [e4, List.mem_append, not_or] at h3
      exact ⟨some { t with readKey := k1, raw := p }, plaintext cs1, plaintext cs2,
        ⟨r1, p, cs1, k1, e1, f1, h3.1, f3, rfl, rfl⟩, ⟨r2, part, cs2, k, e3, f2, h3.2, h4, rfl, rfl⟩,
        by rw [e4, plaintext_append]⟩

/-- The connections receive alike. -/
def SameRecv : Option (Tls K) → Option (Tls K) → Prop
  | none, none => True
  | some t, some t' => t' = { t with writeKey := t'.writeKey, sendable := t'.sendable }
  | _, _ => False

theorem SameRecv.refl (tls : Option (Tls K)) : SameRecv tls tls := by
  cases tls <;> simp [SameRecv]

theorem SameRecv.trans {t1 t2 t3 : Option (Tls K)} (h1 : SameRecv t1 t2) (h2 : SameRecv t2 t3) : SameRecv t1 t3 := by
  cases t1 <;> cases t2 <;> cases t3 <;> simp only [SameRecv] at * <;> try contradiction
  rw [h2, h1]

theorem SameRecv.receiver {tls tls' : Option (Tls K)} (h : SameRecv tls tls') (hr : Receiver tls) : Receiver tls' := by
  intro t' ht'
  subst ht'
  cases tls with
  | none => exact h.elim
  | some t =>
    obtain ⟨h1, h2⟩ := hr t rfl
    simp only [SameRecv] at h
    rw [h]
    exact ⟨h1, h2.plain, h2.open_, h2.readSize, h2.raw⟩

theorem SameRecv.feeds {tls tls' tls1 : Option (Tls K)} {b p : Bytes} (h : SameRecv tls tls') (hf : Feeds tls tls1 b p) :
    ∃ tls1', Feeds tls' tls1' b p ∧ SameRecv tls1 tls1' := by
  cases tls with
  | none => cases tls' with
    | some => exact h.elim
    | none => exact ⟨tls1, hf, .refl _⟩
  | some t => cases tls' with
    | none => exact h.elim
    | some t' => cases tls1 with
      | none => exact hf.elim
      | some t1 =>
        simp only [SameRecv] at h
        obtain ⟨records, part, cs, k, h1, h2, h3, h4, rfl, rfl⟩ := hf
        refine ⟨some { t' with readKey := k, raw := part }, ⟨records, part, cs, k, ?_, ?_, h3, ?_, rfl, rfl⟩, ?_⟩
        · rw [h]; exact h1
        · rw [h]; exact h2
        · rw [h]; exact h4
        · simp only [SameRecv]; rw [h]

theorem writeAll_same_recv (t : Tls K) (b : Bytes) :
    (t.writeAll b).1 = { t with writeKey := (t.writeAll b).1.writeKey, sendable := (t.writeAll b).1.sendable } := by
  fun_induction Tls.writeAll t b with
  | case1 => rfl
  | case2 t b bs t' h =>
    simp only [Tls.write] at h
    split at h <;> rw [Prod.mk.injEq] at h <;> rw [← h.1]
  | case3 t b bs t' n h ih =>
    simp only [Tls.write] at h
    split at h
    · cases h
    · rw [Prod.mk.injEq] at h
      rw [← h.1] at ih
      rw [← h.1]
      exact ih

theorem encrypt_same_recv (t : Tls K) (wb b : Bytes) : SameRecv (some t) (some (t.encrypt wb b).1) := by
  have h : SameRecv (some t) (some (if b.isEmpty then (t, Except.ok ()) else t.writeAll b).1) := by
    split
    · exact .refl _
    · exact writeAll_same_recv t b
  unfold Tls.encrypt
  split
  · rename_i e; rw [e] at h; exact h
  · rename_i e
    rw [e] at h
    rw [Tls.drainWrites_eq]
    exact h.trans rfl

namespace FullStream

theorem handleOutput_same_recv {c c1 : FullStream K σ} {b : Bytes} {ok : Bool} (h : c.handleOutput b = (c1, ok)) :
    SameRecv c.tls c1.tls ∧ c1.readBuffer = c.readBuffer ∧ c1.state = c.state ∧ c1.ctl = c.ctl := by
  unfold handleOutput at h
  cases ht : c.tls with
  | none =>
    rw [ht] at h
    cases h
    exact ⟨trivial, rfl, rfl, rfl⟩
  | some t =>
    rw [ht] at h
    have := encrypt_same_recv t c.writeBuffer b
    simp only at h
    split at h <;> rename_i e <;> rw [e] at this <;> cases h <;> exact ⟨this, rfl, rfl, rfl⟩

theorem Takes.feeds {c : FullStream K σ} {tls tls1 : Option (Tls K)} {rest b plain : Bytes} (h : c.Takes tls rest b)
    (hf : Feeds c.tls tls1 c.readBuffer plain) (hr : Receiver c.tls) : tls = tls1 ∧ rest = [] ∧ b = plain := by
  cases h with
  | plain ht =>
    rw [ht] at hf
    cases tls1 with
    | none => exact ⟨rfl, rfl, hf.symm⟩
    | some => exact hf.elim
  | tls ht hd =>
    rw [ht] at hf
    cases tls1 with
    | none => exact hf.elim
    | some t1 =>
      obtain ⟨records, part, cs, k, h1, h2, h3, h4, rfl, rfl⟩ := hf
      obtain ⟨hR, hr⟩ := hr _ ht
      have := decrypt_ok hr.readSize (C33_partial hR hr h1 h2 h3 h4).1
      rw [hd] at this
      cases this
      exact ⟨rfl, rfl, rfl⟩

theorem feeds_decrypt {c : FullStream K σ} {t : Tls K} {tls1 : Option (Tls K)} {plain : Bytes} (ht : c.tls = some t)
    (hf : Feeds c.tls tls1 c.readBuffer plain) (hr : Receiver c.tls) :
    ∃ t1, tls1 = some t1 ∧ t.decrypt c.readBuffer [] = .ok t1 [] plain := by
  rw [ht] at hf
  cases tls1 with
  | none => exact hf.elim
  | some t1 =>
    obtain ⟨records, part, cs, k, h1, h2, h3, h4, rfl, rfl⟩ := hf
    obtain ⟨hR, hr⟩ := hr _ ht
    exact ⟨_, rfl, decrypt_ok hr.readSize (C33_partial hR hr h1 h2 h3 h4).1⟩

/-- The effect of a step on the receiving side. -/
structure RecvStep (c' : FullStream K σ) (tls1 : Option (Tls K)) (plain : Bytes) (T : List (FullItem ε ev ι)) : Prop where
  ctl : c'.ctl ≠ .hung ∧ c'.ctl ≠ .broken
  items : .hung ∉ T ∧ .broken ∉ T
  alive : c'.ctl ≠ .at .dead → SameRecv tls1 c'.tls ∧ c'.readBuffer = [] ∧ streamDelivered (streamPart T) = plain
  poll : ∀ r pre post, T = pre ++ .stream (.poll r) :: post → streamDelivered (streamPart pre) = plain ∧
    streamRead (streamPart pre) = streamRead (streamPart T)

theorem not_mem_map (D : List (StreamItem ε ev ι)) : FullItem.hung ∉ D.map FullItem.stream ∧
    FullItem.broken ∉ D.map FullItem.stream := by simp

theorem provides_no_poll {M : Machine σ ε ev ι} {b : Bytes} {s s1 : σ} {D : List (StreamItem ε ev ι)}
    (h : Provides M b s s1 D) (r : Except (Interrupt ε) ev) : .poll r ∉ D := by
  rcases h with ⟨rfl, -, rfl⟩ | ⟨-, -, rfl⟩ <;> simp

/-- The only poll behind some deliveries. -/
theorem poll_split {D rest : List (FullItem ε ev ι)} {r r' : Except (Interrupt ε) ev} {pre post : List (FullItem ε ev ι)}
    (h : D ++ .stream (.poll r') :: rest = pre ++ .stream (.poll r) :: post) (hD : ∀ r, .stream (.poll r) ∉ D)
    (hr : ∀ r, .stream (.poll r) ∉ rest) : pre = D := by
  rcases List.append_eq_append_iff.mp h with ⟨a, h1, h2⟩ | ⟨a, h1, h2⟩
  · cases a with
    | nil => simpa using h1
    | cons x a =>
      injection h2 with _ h2
      exact (hr r (by rw [h2]; simp)).elim
  · cases a with
    | nil => simpa using h1.symm
    | cons x a =>
      injection h2 with h2 _
      exact (hD r (by rw [h1, h2]; simp)).elim

theorem Advanced.recv {M : Machine σ ε ev ι} {c c' : FullStream K σ} {T : List (FullItem ε ev ι)} (h : Advanced M c c' T)
    (hr : Receiver c.tls) {tls1 : Option (Tls K)} {plain : Bytes} (hf : Feeds c.tls tls1 c.readBuffer plain) :
    RecvStep c' tls1 plain T ∧ streamRead (streamPart T) = [] := by
  have hn : ∀ {D : List (StreamItem ε ev ι)} {b s s1} {T'}, Provides M b s s1 D → (∀ r, FullItem.stream (.poll r) ∉ T') →
      ∀ r, FullItem.stream (.poll r) ∉ D.map FullItem.stream ++ T' := by
    intro D b s s1 T' hD hT' r hm
    rcases List.mem_append.1 hm with hm | hm
    · exact provides_no_poll hD r (by simpa using hm)
    · exact hT' r hm
  cases h with
  | hung h1 h2 => obtain ⟨t1, -, h⟩ := feeds_decrypt h1 hf hr; rw [h2] at h; cases h
  | broken h1 h2 => obtain ⟨t1, -, h⟩ := feeds_decrypt h1 hf hr; rw [h2] at h; cases h
  | inputPanic h1 h2 h3 =>
    subst h3
    refine ⟨⟨by simp, by simp, fun h => (h rfl).elim, ?_⟩, rfl⟩
    intro r pre post he
    cases pre <;> simp at he
  | nextPanic h1 h2 h3 h4 =>
    subst h4
    obtain ⟨-, -, d1, d2, -⟩ := provides_quiet h2
    refine ⟨⟨by simp, by simp, fun h => (h rfl).elim, ?_⟩, ?_⟩
    · intro r pre post he
      exact (hn h2 (T' := [.stream (.panicked _)]) (by simp) r (by rw [he]; simp)).elim
    · rw [streamPart_append, streamPart_map, streamRead_append, d1]; rfl
  | @returned _ _ _ D _ _ r h1 h2 h3 h4 h5 =>
    subst h5
    obtain ⟨rfl, rfl, rfl⟩ := h1.feeds hf hr
    obtain ⟨-, -, d1, d2, -⟩ := provides_quiet h2
    obtain ⟨-, -, p1, p2, -⟩ := poll_items (ι := ι) r
    refine ⟨⟨by simp, by simp, fun _ => ⟨.refl _, rfl, ?_⟩, ?_⟩, ?_⟩
    · rw [streamPart_map, streamDelivered_append, d2, p2, List.append_nil]
    · intro r' pre post he
      have : pre = D.map .stream := by
        rw [List.map_append, List.map_cons] at he
        refine poll_split he (fun r hm => provides_no_poll h2 r (by simpa using hm)) ?_
        intro r' hm
        rcases r with (io | e) | e <;> simp [returns] at hm
      rw [this, streamPart_map, streamPart_map, streamRead_append, d1, p1]
      exact ⟨d2, rfl⟩
    · rw [streamPart_map, streamRead_append, d1, p1]; rfl
  | @waits _ _ _ D _ _ io c1 h1 h2 h3 h4 h5 =>
    subst h5
    obtain ⟨rfl, rfl, rfl⟩ := h1.feeds hf hr
    obtain ⟨-, -, d1, d2, -⟩ := provides_quiet h2
    obtain ⟨o1, o2, -, -⟩ := handleOutput_same_recv h4
    refine ⟨⟨by simp, by simp, fun _ => ⟨o1, o2, ?_⟩, ?_⟩, ?_⟩
    · rw [streamPart_map, streamDelivered_append, d2]; simp [streamDelivered]
    · intro r' pre post he
      have : pre = D.map .stream := by
        rw [List.map_append] at he
        exact poll_split (rest := []) he (fun r hm => provides_no_poll h2 r (by simpa using hm)) (by simp)
      rw [this, streamPart_map, streamPart_map, streamRead_append, d1]
      exact ⟨d2, rfl⟩
    · rw [streamPart_map, streamRead_append, d1]; rfl
  | @refused _ _ _ D _ _ io c1 h1 h2 h3 h4 h5 =>
    subst h5
    obtain ⟨rfl, rfl, rfl⟩ := h1.feeds hf hr
    obtain ⟨-, -, d1, d2, -⟩ := provides_quiet h2
    obtain ⟨o1, o2, -, -⟩ := handleOutput_same_recv h4
    refine ⟨⟨by simp, by simp, fun _ => ⟨o1, o2, ?_⟩, ?_⟩, ?_⟩
    · rw [streamPart_append, streamPart_map, streamDelivered_append, streamDelivered_append, d2]
      simp [streamDelivered, streamPart, FullItem.stream?]
    · intro r' pre post he
      have : pre = D.map .stream := by
        rw [List.map_append, List.append_assoc] at he
        exact poll_split (rest := [.refused, .stream (.returned (.error .io))]) he
          (fun r hm => provides_no_poll h2 r (by simpa using hm)) (by simp)
      rw [this, streamPart_map, streamPart_append, streamPart_map, streamRead_append, streamRead_append, d1]
      exact ⟨d2, rfl⟩
    · rw [streamPart_append, streamPart_map, streamRead_append, streamRead_append, d1]; rfl

theorem RecvStep.cons {c' : FullStream K σ} {tls1 : Option (Tls K)} {plain : Bytes} {T : List (FullItem ε ev ι)}
    (h : RecvStep c' tls1 plain T) {x : StreamItem ε ev ι} (hx : x = .callNext ∨ (∃ b, x = .read b) ∨ ∃ b, x = .wrote b) :
    RecvStep c' tls1 plain (.stream x :: T) := by
  have hd : streamDelivered (streamPart (.stream x :: T)) = streamDelivered (streamPart T) := by
    rw [streamPart_cons]
    rcases hx with rfl | ⟨b, rfl⟩ | ⟨b, rfl⟩ <;> rfl
  refine ⟨h.ctl, by simpa using h.items, fun ha => ?_, ?_⟩
  · obtain ⟨h1, h2, h3⟩ := h.alive ha
    exact ⟨h1, h2, by rw [hd, h3]⟩
  · intro r pre post he
    cases pre with
    | nil => rcases hx with rfl | ⟨b, rfl⟩ | ⟨b, rfl⟩ <;> simp at he
    | cons y pre =>
      injection he with h1 h2
      subst h1
      obtain ⟨h3, h4⟩ := h.poll r pre post h2
      refine ⟨?_, ?_⟩
      · rw [streamPart_cons]
        rcases hx with rfl | ⟨b, rfl⟩ | ⟨b, rfl⟩ <;> exact h3
      · rw [streamPart_cons, streamPart_cons]
        rcases hx with rfl | ⟨b, rfl⟩ | ⟨b, rfl⟩
        · exact h4
        · exact congrArg (b ++ ·) h4
        · exact h4

theorem Stepped.recv {M : Machine σ ε ev ι} {c c' : FullStream K σ} {T : List (FullItem ε ev ι)} (h : Stepped M c c' T)
    (hrb : c.readBuffer = []) (hr : Receiver c.tls) {tls1 : Option (Tls K)} {plain : Bytes}
    (hf : Feeds c.tls tls1 (streamRead (streamPart T)) plain) : RecvStep c' tls1 plain T := by
  have quiet : streamRead (streamPart T) = [] → streamDelivered (streamPart T) = [] → SameRecv c.tls c'.tls →
      c'.readBuffer = c.readBuffer → c'.ctl ≠ .hung ∧ c'.ctl ≠ .broken → (.hung ∉ T ∧ .broken ∉ T) →
      (∀ r, .stream (.poll r) ∉ T) → RecvStep c' tls1 plain T := by
    intro h1 h2 h3 h4 h5 h6 h7
    rw [h1] at hf
    obtain ⟨rfl, rfl⟩ := hf.nothing hr
    refine ⟨h5, h6, fun _ => ⟨h3, h4.trans hrb, h2⟩, ?_⟩
    intro r pre post he
    exact (h7 r (by rw [he]; simp)).elim
  cases h with
  | user h1 h2 h3 =>
    subst h3
    exact quiet rfl rfl (.refl _) rfl (by simp [h1]) (by simp) (by simp)
  | userPanic h1 h2 h3 =>
    subst h3
    exact quiet rfl rfl (.refl _) rfl (by simp) (by simp) (by simp)
  | @callNext T h1 h2 =>
    have h3 : streamRead (streamPart (.stream .callNext :: T)) = streamRead (streamPart T) := by
      rw [streamPart_cons]; rfl
    rw [h3] at hf
    have h4 := (h2.recv hr (tls1 := c.tls) (plain := []) (by rw [hrb]; exact .zero hr))
    rw [h4.2] at hf
    obtain ⟨rfl, rfl⟩ := hf.nothing hr
    exact h4.1.cons (.inl rfl)
  | @read b T h1 h2 h3 =>
    have h4 : streamRead (streamPart (.stream (.read b) :: T)) = b ++ streamRead (streamPart T) := by
      rw [streamPart_cons]; rfl
    rw [h4] at hf
    obtain ⟨tls2, p1, p2, f1, f2, f3⟩ := hf.split hr
    have h5 := h3.recv hr (tls1 := tls2) (plain := p1) (by rw [hrb]; exact f1)
    rw [h5.2] at f2
    obtain ⟨rfl, rfl⟩ := f2.nothing (f1.receiver hr)
    rw [f3, List.append_nil]
    exact h5.1.cons (.inr (.inl ⟨b, rfl⟩))
  | @written b T h1 h2 h3 h4 =>
    have h5 : streamRead (streamPart (.stream (.wrote b) :: T)) = streamRead (streamPart T) := by
      rw [streamPart_cons]; rfl
    rw [h5] at hf
    have h6 := (h4.recv hr (tls1 := c.tls) (plain := []) (by rw [hrb]; exact .zero hr))
    rw [h6.2] at hf
    obtain ⟨rfl, rfl⟩ := hf.nothing hr
    exact h6.1.cons (.inr (.inr ⟨b, rfl⟩))
  | wrote h1 h2 h3 h4 =>
    rcases h4 with ⟨h4, rfl, rfl⟩ | ⟨h4, rfl, rfl, rfl⟩
    · exact quiet rfl rfl (.refl _) rfl (by rcases h1 with h1 | h1 <;> simp [h1]) (by simp) (by simp)
    · exact quiet rfl rfl (.refl _) rfl (by simp) (by simp) (by simp)
  | flush h1 h2 h3 =>
    obtain ⟨o1, o2, -, o3⟩ := handleOutput_same_recv h2
    rcases h3 with ⟨h3, rfl, rfl⟩ | ⟨h3, rfl, rfl⟩
    · exact quiet rfl rfl o1 o2 (by rw [o3, h1]; simp) (by simp) (by simp)
    · exact quiet rfl rfl o1 o2 (by simp) (by simp) (by simp)
  | ended h1 h2 =>
    subst h1
    rcases h2 with ⟨-, rfl, rfl⟩ | ⟨-, rfl, rfl⟩ | ⟨-, rfl, rfl⟩ | ⟨-, rfl, rfl⟩ | ⟨-, rfl, rfl⟩ <;>
      exact quiet rfl rfl (.refl _) rfl (by simp) (by simp) (by simp)
  | dropped h1 h2 =>
    subst h2
    exact quiet rfl rfl (.refl _) rfl (by simp) (by simp) (by simp)

end FullStream

end ImapFlow
