import Verif.Spec.TlsRecords

/-!
# How much longer records are than their plaintext
-/

namespace ImapFlow

/-- Records are at most `f` times as long as the plaintext in them.  The records of TLS 1.3 are 22 bytes longer than the plaintext,
those of TLS 1.2 at most 29 bytes, and no record is empty; so this is true of them with `f = 30`. -/
def RecordLayer.Grows {K : Type} (R : RecordLayer K) (f : Nat) : Prop :=
  ∀ k d, d ≠ [] → (R.protect k d).2.flatten.length ≤ f * d.length

theorem toyLayer_grows : toyLayer.Grows 2 := by
  intro k d hd
  clear hd
  show (d.map fun b => [1, b]).flatten.length ≤ 2 * d.length
  induction d with
  | nil => simp
  | cons b d ih => simp only [List.map_cons, List.flatten_cons, List.length_append, List.length_cons, List.length_nil] at ih ⊢; omega

end ImapFlow
