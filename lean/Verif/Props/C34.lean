import Verif.Props.C33

/-!
# C34: TLS encryption accepts every output (false above the buffer limit; holds below)

`Writer::write` accepts only as many bytes as fit into the buffer of `rustls`; `write_all`
(`/repo/src/stream.rs:302`) turns the refusal into an error, and the buffer is drained only afterwards.
-/

namespace ImapFlow

variable {K : Type}

/-- What holds: if the output is not longer than the buffer limit and no records are waiting, `encrypt`
succeeds, appends records to the write buffer, leaves no records waiting, and a peer with the matching key
opens these records to exactly the output. -/
theorem C34_partial {t : Tls K} {paired : K → K → Prop} (hR : t.layer.Delivers paired) {kr : K}
    (hk : paired t.writeKey kr) (hs : t.sendable = []) (writeBuffer : Bytes) {plain : Bytes} (hl : plain.length ≤ t.limit) :
    ∃ (t' : Tls K) (out : Bytes) (cs : List Bytes) (kr' : K), t.encrypt writeBuffer plain = (t', writeBuffer ++ out, .ok ()) ∧
      t'.sendable = [] ∧ t'.layer = t.layer ∧ t'.limit = t.limit ∧
      t.layer.Carries kr out (cs.map .data) kr' ∧ cs.flatten = plain ∧ paired t'.writeKey kr' := by
  by_cases hp : plain = []
  · subst hp
    refine ⟨t, [], [], kr, ?_, hs, rfl, rfl, .nil _, rfl, hk⟩
    cases t
    simp only at hs
    subst hs
    simp [Tls.encrypt, Tls.drainWrites_eq]
  · obtain ⟨cs, kr', h1, h2, h3⟩ := hR.carries hk plain
    have hw := t.writeAll_fits hp (by simpa [Tls.space, hs] using hl)
    refine ⟨{ t.sealed plain with sendable := [] }, (t.layer.protect t.writeKey plain).2.flatten, cs, kr', ?_, rfl, rfl, rfl,
      h1, h2, h3⟩
    simp only [Tls.encrypt, List.isEmpty_eq_false_iff.2 hp, hw, Bool.false_eq_true, if_false, Tls.drainWrites_eq]
    simp [Tls.sealed, hs]

/-- Above the limit `encrypt` fails, always. -/
theorem C34_too_long {t : Tls K} {paired : K → K → Prop} (hR : t.layer.Delivers paired) (writeBuffer : Bytes) {plain : Bytes}
    (hl : t.limit < plain.length) : ∃ t', t.encrypt writeBuffer plain = (t', writeBuffer, .error .io) := by
  have hp : plain ≠ [] := by rintro rfl; simp at hl
  have hw := t.writeAll_too_long hR (bytes := plain) (by simp only [Tls.space]; omega)
  refine ⟨if t.space = 0 then t else t.sealed (plain.take t.space), ?_⟩
  simp only [Tls.encrypt, List.isEmpty_eq_false_iff.2 hp, hw, Bool.false_eq_true, if_false]

/-- The limit is exact. -/
theorem C34_exact {t : Tls K} {paired : K → K → Prop} (hR : t.layer.Delivers paired) {kr : K}
    (hk : paired t.writeKey kr) (hs : t.sendable = []) (writeBuffer plain : Bytes) :
    (t.encrypt writeBuffer plain).2.2 = .ok () ↔ plain.length ≤ t.limit := by
  constructor
  · intro h
    by_cases hl : plain.length ≤ t.limit
    · exact hl
    · obtain ⟨t', ht'⟩ := C34_too_long hR writeBuffer (Nat.lt_of_not_le hl)
      rw [ht'] at h
      cases h
  · intro hl
    obtain ⟨t', out, cs, kr', h1, _⟩ := C34_partial hR hk hs writeBuffer hl
    rw [h1]

/-- The claim is false, whatever the limit is. -/
theorem C34_false : ¬ ∀ (K : Type) (t : Tls K) (paired : K → K → Prop) (kr : K) (writeBuffer plain : Bytes),
    t.layer.Delivers paired → paired t.writeKey kr → t.sendable = [] → (t.encrypt writeBuffer plain).2.2 = .ok () := by
  intro H
  let t : Tls Nat := { layer := toyLayer, readSize := 4096, limit := 65536, readKey := 0, raw := [], plain := []
                       closed := false, writeKey := 0, sendable := [] }
  have h := H Nat t (· = ·) 0 [] (List.replicate 65537 0) toyLayer_delivers rfl rfl
  rw [C34_exact (t := t) toyLayer_delivers (kr := 0) rfl rfl, List.length_replicate] at h
  exact absurd h (by decide)

/-- After the failure, the first bytes of the refused output stay in the connection: the next `encrypt` of
nothing (as in `Stream::flush`, `/repo/src/stream.rs:76-79`) emits them.  The peer gets a truncated output. -/
theorem C34_truncates {t : Tls K} {paired : K → K → Prop} (hR : t.layer.Delivers paired) {kr : K}
    (hk : paired t.writeKey kr) (hs : t.sendable = []) (hpos : 0 < t.limit) (writeBuffer : Bytes) {plain : Bytes}
    (hl : t.limit < plain.length) :
    ∃ (t1 t2 : Tls K) (out : Bytes) (cs : List Bytes) (kr' : K), t.encrypt writeBuffer plain = (t1, writeBuffer, .error .io) ∧
      t1.encrypt writeBuffer [] = (t2, writeBuffer ++ out, .ok ()) ∧
      t.layer.Carries kr out (cs.map .data) kr' ∧ cs.flatten = plain.take t.limit := by
  have hp : plain ≠ [] := by rintro rfl; simp at hl
  have hsp : t.space = t.limit := by simp [Tls.space, hs]
  have hw := t.writeAll_too_long hR (bytes := plain) (by omega)
  rw [if_neg (by omega), hsp] at hw
  obtain ⟨cs, kr', h1, h2, _⟩ := hR.carries hk (plain.take t.limit)
  refine ⟨t.sealed (plain.take t.limit), { t.sealed (plain.take t.limit) with sendable := [] }, (t.layer.protect t.writeKey (plain.take t.limit)).2.flatten, cs, kr', ?_, ?_, h1, h2⟩
  · simp only [Tls.encrypt, List.isEmpty_eq_false_iff.2 hp, hw, Bool.false_eq_true, if_false]
  · simp only [Tls.encrypt, List.isEmpty_nil, if_true, Tls.drainWrites_eq]
    simp only [Tls.sealed, hs, List.nil_append]

/-- Both directions together: what one side encrypts, the other side's `decrypt` passes on, in one call, for
outputs within the limit. -/
theorem C34_round_trip {s r : Tls K} {paired : K → K → Prop} (hR : s.layer.Delivers paired) (hRr : r.layer = s.layer)
    (hrec : r.layer.Receives) (hk : paired s.writeKey r.readKey) (hs : s.sendable = []) (hr : r.Ready) (hraw : r.raw = [])
    {plain : Bytes} (hl : plain.length ≤ s.limit) :
    ∃ (s' : Tls K) (out : Bytes) (k : K), s.encrypt [] plain = (s', out, .ok ()) ∧ s'.sendable = [] ∧
      (DecryptState.start r out).Ends (.ok ({ r with readKey := k, raw := [] }, [], plain)) ∧ paired s'.writeKey k := by
  obtain ⟨s', out, cs, k, h1, h2, _, _, h5, h6, h7⟩ := C34_partial hR hk hs [] hl
  refine ⟨s', out, k, h1, h2, ?_, h7⟩
  rw [← hRr] at h5
  have := (C33_partial hrec hr (readBuffer := out) (part := []) (by rw [hraw]; simp) h5 (by simp) (hrec.empty _)).1
  rwa [plaintext_data, h6] at this

/-! ## Examples -/

namespace C34Sample

/-- A sender with room for three bytes. -/
def t : Tls Nat :=
  { layer := toyLayer, readSize := 2, limit := 3, readKey := 0, raw := [], plain := [], closed := false
    writeKey := 7, sendable := [] }

example : (t.encrypt [9] [65, 66, 67]).2 = ([9, 1, 65, 1, 66, 1, 67], .ok ()) := by
  obtain ⟨t', out, cs, kr', h1, _⟩ := C34_partial (t := t) toyLayer_delivers (kr := 7) rfl rfl [9] (plain := [65, 66, 67]) (by decide)
  have : (t.encrypt [9] [65, 66, 67]).2.1 = [9, 1, 65, 1, 66, 1, 67] := by decide +kernel
  rw [h1] at this ⊢
  rw [← this]

example : (t.encrypt [9] [65, 66, 67, 68]).2.2 ≠ .ok () := by
  obtain ⟨t', h⟩ := C34_too_long (t := t) toyLayer_delivers [9] (plain := [65, 66, 67, 68]) (by decide)
  rw [h]
  simp

end C34Sample

end ImapFlow
