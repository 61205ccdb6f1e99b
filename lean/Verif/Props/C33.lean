import Verif.Proofs.FullStream

/-!
# C33: TLS decryption terminates and passes on all plaintext (false; what holds instead)

The inner loop of `decrypt` (`/repo/src/stream.rs:277-290`) is left only on `WouldBlock` or on an error.
After a `close_notify` the reader returns `Ok(0)` forever.
-/

namespace ImapFlow

variable {K : Type}

/-- After a `close_notify`, `decrypt` never ends: for every connection, whatever is in front of the alert and
behind it, and however the bytes are split between earlier calls (`t.raw`) and this call. -/
theorem C33_diverges {t : Tls K} (hR : t.layer.Receives) (ht : t.Ready) {readBuffer records more : Bytes}
    {cs : List RecordContent} {k : K} (hbytes : t.raw ++ readBuffer = records ++ more)
    (hrec : t.layer.Carries t.readKey records cs k) (hclose : RecordContent.closeNotify ∈ cs)
    (r : Except TlsError (Tls K × Bytes × Bytes)) : ¬ (DecryptState.start t readBuffer).Ends r := by
  have main : ∀ (l : Nat) (t : Tls K) (rb acc recs : Bytes) (cs : List RecordContent), rb.length = l →
      t.layer.Receives → t.Ready → t.raw ++ rb = recs ++ more → t.layer.Carries t.readKey recs cs k →
      RecordContent.closeNotify ∈ cs → ∃ n, ((DecryptState.outer t rb acc).steps n).Stuck := by
    intro l
    induction l using Nat.strongRecOn with
    | ind l ih =>
      intro t rb acc recs cs hl hR ht hb hrec hclose
      by_cases hrb : rb = []
      · -- the connection holds no complete record
        exfalso
        subst hrb
        cases hrec with
        | nil => cases hclose
        | cons h _ =>
          have h1 := ht.raw
          rw [List.append_nil] at hb
          rw [hb, List.append_assoc, hR.first h] at h1
          cases h1
      · have hpos : 0 < rb.length := List.length_pos_iff.2 hrb
        have hsize := ht.readSize
        generalize hn : min t.readSize rb.length = n at *
        have hb' : recs ++ more = (t.raw ++ rb.take n) ++ rb.drop n := by
          rw [List.append_assoc, List.take_append_drop, hb]
        have stuck : ∀ {k1 p}, Tls.openAll t.layer t.readKey (t.raw ++ rb.take n) = some (k1, [], p, true) →
            ∃ n, ((DecryptState.outer t rb acc).steps n).Stuck := by
          intro k1 p ho
          refine ⟨1, ?_⟩
          simp only [DecryptState.steps, DecryptState.outer_step ht.plain ht.open_ hrb, hn]
          rw [ho]
          rfl
        by_cases hlen : recs.length ≤ (t.raw ++ rb.take n).length
        · have h1 : t.raw ++ rb.take n = recs ++ (t.raw ++ rb.take n).drop recs.length := by
            have h2 := congrArg (List.take recs.length) hb'
            rw [List.take_left, List.take_append_of_le_length hlen] at h2
            conv => lhs; rw [← List.take_append_drop recs.length (t.raw ++ rb.take n), ← h2]
          obtain ⟨k1, p, ho⟩ := Tls.openAll_closed hR hrec hclose ((t.raw ++ rb.take n).drop recs.length)
          rw [← h1] at ho
          exact stuck ho
        · obtain ⟨z, hz⟩ : ∃ z, recs = (t.raw ++ rb.take n) ++ z := by
            refine ⟨recs.drop (t.raw ++ rb.take n).length, ?_⟩
            have h1 := congrArg (List.take (t.raw ++ rb.take n).length) hb'
            rw [List.take_left, List.take_append_of_le_length (by omega)] at h1
            conv => lhs; rw [← List.take_append_drop (t.raw ++ rb.take n).length recs, h1]
          obtain ⟨r1, p, r2, cs1, cs2, k1, e1, e2, e3, h1, h2, h3⟩ := Tls.carries_prefix hR hrec hz
          by_cases hc1 : RecordContent.closeNotify ∈ cs1
          · obtain ⟨k3, q, ho⟩ := Tls.openAll_closed hR h1 hc1 p
            rw [← e1] at ho
            exact stuck ho
          · have ho := Tls.openAll_carries hR h1 hc1 h3
            rw [← e1, ← hn] at ho
            obtain ⟨m, hm⟩ := DecryptState.outer_round (acc := acc) ht.plain ht.open_ hrb ho
            rw [hn] at hm
            have hrest : p ++ rb.drop n = r2 ++ more := by
              rw [e1, e2, List.append_assoc, List.append_assoc] at hb'
              exact (List.append_cancel_left hb').symm
            have hc2 : RecordContent.closeNotify ∈ cs2 := by
              rw [e3] at hclose
              exact (List.mem_append.1 hclose).resolve_left hc1
            obtain ⟨m', hm'⟩ := ih (rb.drop n).length (by rw [List.length_drop]; omega)
              { t with readKey := k1, raw := p } (rb.drop n) (acc ++ plaintext cs1) r2 cs2 rfl hR
              ⟨ht.plain, ht.open_, ht.readSize, h3⟩ hrest h2 hc2
            exact ⟨m + m', by rw [DecryptState.steps_add, hm]; exact hm'⟩
  obtain ⟨n, hn⟩ := main _ t readBuffer [] records cs rfl hR ht hbytes hrec hclose
  exact hn.not_ends n r

/-- The claim about termination is false for every record layer that has a `close_notify` record. -/
theorem C33_false : ¬ ∀ (K : Type) (t : Tls K) (readBuffer : Bytes), t.layer.Receives → t.Ready →
    ∃ r, (DecryptState.start t readBuffer).Ends r := by
  intro H
  let t : Tls Nat := { layer := toyLayer, readSize := 2, limit := 8, readKey := 0, raw := [], plain := [], closed := false
                       writeKey := 0, sendable := [] }
  have hR := toyLayer_receives
  have ht : t.Ready := ⟨rfl, rfl, by decide, rfl⟩
  obtain ⟨r, hr⟩ := H Nat t [255] hR ht
  exact C33_diverges (t := t) hR ht (records := [255]) (more := []) (cs := [.closeNotify]) (k := 1) rfl
    (.cons (r := [255]) (bs := []) rfl (.nil _)) (by simp) r hr

/-- A second way in which the claim is false: if the connection already holds plaintext when it is handed to
`Stream::tls` (`/repo/src/stream.rs:38-72`; the peer may have sent data together with the end of the
handshake), then `wants_read` is false, and `decrypt` passes on nothing, however much input arrives. -/
theorem C33_early_data {t : Tls K} (h : t.plain ≠ []) (readBuffer : Bytes) :
    (DecryptState.start t readBuffer).Ends (.ok (t, readBuffer, [])) := by
  refine ⟨1, ?_⟩
  have h1 : t.wantsRead = false := by simp [Tls.wantsRead, h]
  simp [DecryptState.start, DecryptState.steps, DecryptState.step, h1]

/-- What holds: if the input consists of valid records without `close_notify`, followed by the beginning of a
record, and nothing is waiting in the connection, then `decrypt` ends, takes all input, and passes on exactly
the plaintext of the records in order; and the connection is ready for the next call. -/
theorem C33_partial {t : Tls K} (hR : t.layer.Receives) (ht : t.Ready) {readBuffer records part : Bytes}
    {cs : List RecordContent} {k : K} (hbytes : t.raw ++ readBuffer = records ++ part)
    (hrec : t.layer.Carries t.readKey records cs k) (hclose : RecordContent.closeNotify ∉ cs)
    (hpart : t.layer.unprotect k part = .incomplete) :
    (DecryptState.start t readBuffer).Ends (.ok ({ t with readKey := k, raw := part }, [], plaintext cs)) ∧
    ({ t with readKey := k, raw := part } : Tls K).Ready := by
  refine ⟨?_, ⟨ht.plain, ht.open_, ht.readSize, hpart⟩⟩
  have main : ∀ (l : Nat) (t : Tls K) (rb acc recs : Bytes) (cs : List RecordContent), rb.length = l →
      t.layer.Receives → t.Ready → t.raw ++ rb = recs ++ part → t.layer.Carries t.readKey recs cs k →
      RecordContent.closeNotify ∉ cs → t.layer.unprotect k part = .incomplete →
      (DecryptState.outer t rb acc).Ends (.ok ({ t with readKey := k, raw := part }, [], acc ++ plaintext cs)) := by
    intro l
    induction l using Nat.strongRecOn with
    | ind l ih =>
      intro t rb acc recs cs hl hR ht hb hrec hclose hpart
      by_cases hrb : rb = []
      · subst hrb
        cases hrec with
        | nil =>
          refine ⟨1, ?_⟩
          simp only [List.append_nil, List.nil_append] at hb
          subst hb
          simp [DecryptState.steps, DecryptState.step, plaintext]
        | cons h _ =>
          have h1 := ht.raw
          rw [List.append_nil] at hb
          rw [hb, List.append_assoc, hR.first h] at h1
          cases h1
      · have hpos : 0 < rb.length := List.length_pos_iff.2 hrb
        have hsize := ht.readSize
        generalize hn : min t.readSize rb.length = n at *
        have hb' : recs ++ part = (t.raw ++ rb.take n) ++ rb.drop n := by
          rw [List.append_assoc, List.take_append_drop, hb]
        obtain ⟨r1, p, r2, cs1, cs2, k1, e1, e2, e3, e4, h1, h2, h3⟩ := Tls.take_split hR hrec hpart hb'
        rw [e4, List.mem_append, not_or] at hclose
        have ho := Tls.openAll_carries hR h1 hclose.1 h3
        rw [← e1, ← hn] at ho
        obtain ⟨m, hm⟩ := DecryptState.outer_round (acc := acc) ht.plain ht.open_ hrb ho
        rw [hn] at hm
        have := ih (rb.drop n).length (by rw [List.length_drop]; omega)
          { t with readKey := k1, raw := p } (rb.drop n) (acc ++ plaintext cs1) r2 cs2 rfl hR
          ⟨ht.plain, ht.open_, ht.readSize, h3⟩ e3 h2 hclose.2 hpart
        refine .of_steps m ?_
        rw [hm, e4, plaintext_append, ← List.append_assoc]
        exact this
  exact main _ t readBuffer [] records cs rfl hR ht hbytes hrec hclose hpart

/-- A broken record is reported as an error (and the plaintext decrypted in the same call is dropped). -/
theorem C33_broken {t : Tls K} (hR : t.layer.Receives) (ht : t.Ready) {readBuffer records bad : Bytes}
    {cs : List RecordContent} {k : K} (hbytes : t.raw ++ readBuffer = records ++ bad)
    (hrec : t.layer.Carries t.readKey records cs k) (hclose : RecordContent.closeNotify ∉ cs)
    (hbad : t.layer.unprotect k bad = .invalid) :
    (DecryptState.start t readBuffer).Ends (.error .tls) := by
  have main : ∀ (l : Nat) (t : Tls K) (rb acc recs : Bytes) (cs : List RecordContent), rb.length = l →
      t.layer.Receives → t.Ready → t.raw ++ rb = recs ++ bad → t.layer.Carries t.readKey recs cs k →
      RecordContent.closeNotify ∉ cs → t.layer.unprotect k bad = .invalid →
      (DecryptState.outer t rb acc).Ends (.error .tls) := by
    intro l
    induction l using Nat.strongRecOn with
    | ind l ih =>
      intro t rb acc recs cs hl hR ht hb hrec hclose hbad
      by_cases hrb : rb = []
      · exfalso
        subst hrb
        have h1 := ht.raw
        rw [List.append_nil] at hb
        cases hrec with
        | nil => rw [hb, List.nil_append, hbad] at h1; cases h1
        | cons h _ => rw [hb, List.append_assoc, hR.first h] at h1; cases h1
      · have hpos : 0 < rb.length := List.length_pos_iff.2 hrb
        have hsize := ht.readSize
        generalize hn : min t.readSize rb.length = n at *
        have hb' : recs ++ bad = (t.raw ++ rb.take n) ++ rb.drop n := by
          rw [List.append_assoc, List.take_append_drop, hb]
        -- the next round, if the new bytes end in the beginning of a record
        have next : ∀ {r1 p r2 : Bytes} {cs1 cs2 : List RecordContent} {k1 : K}, t.raw ++ rb.take n = r1 ++ p →
            p ++ rb.drop n = r2 ++ bad → cs = cs1 ++ cs2 → t.layer.Carries t.readKey r1 cs1 k1 →
            t.layer.Carries k1 r2 cs2 k → t.layer.unprotect k1 p = .incomplete →
            (DecryptState.outer t rb acc).Ends (.error .tls) := by
          intro r1 p r2 cs1 cs2 k1 e1 e3 e4 h1 h2 h3
          rw [e4, List.mem_append, not_or] at hclose
          have ho := Tls.openAll_carries hR h1 hclose.1 h3
          rw [← e1, ← hn] at ho
          obtain ⟨m, hm⟩ := DecryptState.outer_round (acc := acc) ht.plain ht.open_ hrb ho
          rw [hn] at hm
          have := ih (rb.drop n).length (by rw [List.length_drop]; omega)
            { t with readKey := k1, raw := p } (rb.drop n) (acc ++ plaintext cs1) r2 cs2 rfl hR
            ⟨ht.plain, ht.open_, ht.readSize, h3⟩ e3 h2 hclose.2 hbad
          exact .of_steps m (by rw [hm]; exact this)
        by_cases hlen : (t.raw ++ rb.take n).length ≤ recs.length
        · obtain ⟨z, hz⟩ : ∃ z, recs = (t.raw ++ rb.take n) ++ z := by
            refine ⟨recs.drop (t.raw ++ rb.take n).length, ?_⟩
            have h1 := congrArg (List.take (t.raw ++ rb.take n).length) hb'
            rw [List.take_left, List.take_append_of_le_length hlen] at h1
            conv => lhs; rw [← List.take_append_drop (t.raw ++ rb.take n).length recs, h1]
          obtain ⟨r1, p, r2, cs1, cs2, k1, e1, e2, e3, h1, h2, h3⟩ := Tls.carries_prefix hR hrec hz
          refine next e1 ?_ e3 h1 h2 h3
          rw [e1, e2, List.append_assoc, List.append_assoc] at hb'
          exact (List.append_cancel_left hb').symm
        · have h1 : t.raw ++ rb.take n = recs ++ (t.raw ++ rb.take n).drop recs.length := by
            have h2 := congrArg (List.take recs.length) hb'
            rw [List.take_left, List.take_append_of_le_length (by omega)] at h2
            conv => lhs; rw [← List.take_append_drop recs.length (t.raw ++ rb.take n), ← h2]
          generalize (t.raw ++ rb.take n).drop recs.length = b1 at h1
          have h2 : bad = b1 ++ rb.drop n := by
            rw [h1, List.append_assoc] at hb'
            exact List.append_cancel_left hb'
          cases hu : t.layer.unprotect k b1 with
          | incomplete => exact next (r2 := []) (cs2 := []) h1 (by simp [h2]) (by simp) hrec (.nil _) hu
          | invalid =>
            have ho := Tls.openAll_invalid hR hrec hclose hu
            rw [← h1, ← hn] at ho
            refine ⟨1, ?_⟩
            simp only [DecryptState.steps, DecryptState.outer_step ht.plain ht.open_ hrb, ho]
          | record k1 m c =>
            exfalso
            have h3 := hR.exact hu (b1.drop m ++ rb.drop n)
            rw [← List.append_assoc, List.take_append_drop, ← h2, hbad] at h3
            cases h3
  exact main _ t readBuffer [] records cs rfl hR ht hbytes hrec hclose hbad

/-! ## Examples -/

/-- The model of streams with TLS does not run the loops but uses the function `Tls.decrypt`.  It says what becomes of the
loops, for every connection and input. -/
theorem C33_loops {t : Tls K} (hs : 0 < t.readSize) (readBuffer : Bytes) :
    match t.decrypt readBuffer [] with
    | .ok t' rest plain => (DecryptState.start t readBuffer).Ends (.ok (t', rest, plain))
    | .broken => (DecryptState.start t readBuffer).Ends (.error .tls)
    | .hang => ∀ r, ¬ (DecryptState.start t readBuffer).Ends r := by
  have h := decrypt_meets t readBuffer hs
  cases hd : t.decrypt readBuffer [] <;> (rw [hd] at h; exact h)

namespace C33Sample

/-- A connection that holds the beginning of a record. -/
def t : Tls Nat :=
  { layer := toyLayer, readSize := 2, limit := 8, readKey := 3, raw := [2, 65], plain := [], closed := false
    writeKey := 0, sendable := [] }

theorem t_ready : t.Ready := ⟨rfl, rfl, by decide, by decide⟩

/-- Two records with data, a record without data, and the beginning of another record. -/
example : (DecryptState.start t [66, 254, 1, 67, 3, 68]).Ends
    (.ok ({ t with readKey := 6, raw := [3, 68] }, [], [65, 66, 67])) :=
  (C33_partial toyLayer_receives t_ready (records := [2, 65, 66] ++ ([254] ++ ([1, 67] ++ []))) (part := [3, 68])
    (cs := [.data [65, 66], .other, .data [67]]) (k := 6) rfl
    (.cons rfl (.cons rfl (.cons rfl (.nil _)))) (by decide) (by decide)).1

/-- `close_notify` behind some data. -/
example (r : Except TlsError (Tls Nat × Bytes × Bytes)) : ¬ (DecryptState.start t [66, 255, 1, 67]).Ends r :=
  C33_diverges toyLayer_receives t_ready (records := [2, 65, 66] ++ ([255] ++ [])) (more := [1, 67])
    (cs := [.data [65, 66], .closeNotify]) (k := 5) rfl (.cons rfl (.cons rfl (.nil _))) (by decide) r

/-- A broken record behind some data. -/
example : (DecryptState.start t [66, 253]).Ends (.error .tls) :=
  C33_broken toyLayer_receives t_ready (records := [2, 65, 66] ++ []) (bad := [253])
    (cs := [.data [65, 66]]) (k := 4) rfl (.cons rfl (.nil _)) (by decide) (by decide)

/-- Early data. -/
example : (DecryptState.start { t with plain := [42] } [66]).Ends (.ok ({ t with plain := [42] }, [66], [])) :=
  C33_early_data (by simp) _

/-- All three results. -/
example : t.decrypt [66, 254, 1, 67, 3, 68] [] = .ok { t with readKey := 6, raw := [3, 68] } [] [65, 66, 67] ∧
    t.decrypt [66, 253] [] = .broken ∧ t.decrypt [66, 255, 1, 67] [] = .hang :=
  ⟨decrypt_ok (by decide) ((C33_partial toyLayer_receives t_ready (records := [2, 65, 66] ++ ([254] ++ ([1, 67] ++ [])))
      (part := [3, 68]) (cs := [.data [65, 66], .other, .data [67]]) (k := 6) rfl
      (.cons rfl (.cons rfl (.cons rfl (.nil _)))) (by decide) (by decide)).1),
    decrypt_broken (by decide) (C33_broken toyLayer_receives t_ready (records := [2, 65, 66] ++ []) (bad := [253])
      (cs := [.data [65, 66]]) (k := 4) rfl (.cons rfl (.nil _)) (by decide) (by decide)),
    decrypt_hang (by decide) (C33_diverges toyLayer_receives t_ready (records := [2, 65, 66] ++ ([255] ++ []))
      (more := [1, 67]) (cs := [.data [65, 66], .closeNotify]) (k := 5) rfl (.cons rfl (.cons rfl (.nil _))) (by decide))⟩

end C33Sample

end ImapFlow
