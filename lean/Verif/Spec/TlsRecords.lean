import Verif.Model.Tls

/-!
# What a sequence of TLS records carries

Independent of `Tls.openAll`: a relation between bytes and the contents of the records they consist of, and
the contract of the record layer.
-/

namespace ImapFlow

variable {K : Type}

/-- The bytes are complete records with the given contents; the receiving key changes accordingly. -/
inductive RecordLayer.Carries (R : RecordLayer K) : K → Bytes → List RecordContent → K → Prop where
  | nil (k : K) : Carries R k [] [] k
  | cons {k k' k'' : K} {r bs : Bytes} {c : RecordContent} {cs : List RecordContent} :
      R.unprotect k r = .record k' r.length c → Carries R k' bs cs k'' → Carries R k (r ++ bs) (c :: cs) k''

/-- The application data of some records. -/
def plaintext : List RecordContent → Bytes
  | [] => []
  | .data bytes :: cs => bytes ++ plaintext cs
  | _ :: cs => plaintext cs

/-- The contract of the receiving side of a record layer: records are recognised by their own bytes. -/
structure RecordLayer.Receives (R : RecordLayer K) : Prop where
  /-- there is no record in no bytes -/
  empty : ∀ k, R.unprotect k [] = .incomplete
  /-- a record is not empty, and it is within the bytes -/
  bounds : ∀ {k bs k' n c}, R.unprotect k bs = .record k' n c → 0 < n ∧ n ≤ bs.length
  /-- bytes behind a record do not matter -/
  exact : ∀ {k bs k' n c}, R.unprotect k bs = .record k' n c → ∀ more,
    R.unprotect k (bs.take n ++ more) = .record k' n c
  /-- a proper part of a record is incomplete -/
  partly : ∀ {k bs k' n c}, R.unprotect k bs = .record k' n c → ∀ m, m < n →
    R.unprotect k (bs.take m) = .incomplete
  /-- a part of an incomplete record is incomplete -/
  incomplete : ∀ {k bs}, R.unprotect k bs = .incomplete → ∀ m, R.unprotect k (bs.take m) = .incomplete

/-- The contract of sending: what is sealed with a key is opened with the key of the peer. -/
structure RecordLayer.Delivers (R : RecordLayer K) (paired : K → K → Prop) : Prop where
  carries : ∀ {kw kr}, paired kw kr → ∀ d, ∃ (ds : List Bytes) (kr' : K),
    R.Carries kr (R.protect kw d).2.flatten (ds.map .data) kr' ∧ ds.flatten = d ∧ paired (R.protect kw d).1 kr'
  /-- records are not shorter than their content -/
  length : ∀ kw d, d.length ≤ (R.protect kw d).2.flatten.length

/-- Nothing is waiting in the connection, except the beginning of a record. -/
structure Tls.Ready (t : Tls K) : Prop where
  plain : t.plain = []
  open_ : t.closed = false
  readSize : 0 < t.readSize
  raw : t.layer.unprotect t.readKey t.raw = .incomplete

/-- A record layer for examples.  A record is a byte that says how many bytes follow, and these bytes; 255
is `close_notify`, 254 is a record without application data, 253 is broken.  Keys count records. -/
def toyLayer : RecordLayer Nat where
  unprotect k bs :=
    match bs with
    | [] => .incomplete
    | b :: bs =>
      if b = 255 then .record (k + 1) 1 .closeNotify
      else if b = 254 then .record (k + 1) 1 .other
      else if b = 253 then .invalid
      else if bs.length < b.toNat then .incomplete
      else .record (k + 1) (b.toNat + 1) (.data (bs.take b.toNat))
  protect k d := (k + d.length, d.map fun b => [1, b])

theorem toyLayer_receives : toyLayer.Receives where
  empty _ := rfl
  bounds {k bs k' n c} h := by
    cases bs with
    | nil => cases h
    | cons b bs =>
      simp only [toyLayer] at h
      split at h
      · cases h; simp
      split at h
      · cases h; simp
      split at h
      · cases h
      split at h
      · cases h
      · cases h; simp only [List.length_cons]; omega
  exact {k bs k' n c} h more := by
    cases bs with
    | nil => cases h
    | cons b bs =>
      simp only [toyLayer] at h
      split at h
      · cases h; simp_all [toyLayer]
      split at h
      · cases h; simp_all [toyLayer]
      split at h
      · cases h
      split at h
      · cases h
      · rename_i h1 h2 h3 h4
        cases h
        simp only [toyLayer, List.take_succ_cons, List.cons_append, h1, h2, h3, if_false]
        rw [if_neg (by simp only [List.length_append, List.length_take]; omega)]
        rw [List.take_append_of_le_length (by simp only [List.length_take]; omega), List.take_take, Nat.min_self]
  partly {k bs k' n c} h m hm := by
    cases bs with
    | nil => cases h
    | cons b bs =>
      cases m with
      | zero => rfl
      | succ m =>
        simp only [toyLayer] at h
        split at h
        · cases h; omega
        split at h
        · cases h; omega
        split at h
        · cases h
        split at h
        · cases h
        · rename_i h1 h2 h3 h4
          cases h
          simp only [toyLayer, List.take_succ_cons, h1, h2, h3, if_false]
          rw [if_pos (by simp only [List.length_take]; omega)]
  incomplete {k bs} h m := by
    cases bs with
    | nil => simpa using h
    | cons b bs =>
      cases m with
      | zero => rfl
      | succ m =>
        simp only [toyLayer] at h
        split at h
        · cases h
        split at h
        · cases h
        split at h
        · cases h
        split at h
        · rename_i h1 h2 h3 h4
          simp only [toyLayer, List.take_succ_cons, h1, h2, h3, if_false]
          rw [if_pos (by simp only [List.length_take]; omega)]
        · cases h

theorem toyLayer_delivers : toyLayer.Delivers (· = ·) where
  carries {kw kr} h d := by
    subst h
    refine ⟨d.map fun b => [b], kw + d.length, ?_, ?_, rfl⟩
    · simp only [toyLayer]
      induction d generalizing kw with
      | nil => exact .nil _
      | cons b d ih =>
        have h1 := ih (kw := kw + 1)
        rw [show kw + (b :: d).length = kw + 1 + d.length by simp only [List.length_cons]; omega]
        simp only [List.map_cons, List.flatten_cons]
        exact .cons (by rfl) h1
    · induction d with
      | nil => rfl
      | cons b d ih => simp [ih]
  length kw d := by
    simp only [toyLayer]
    induction d with
    | nil => simp
    | cons b d ih => simp only [List.map_cons, List.flatten_cons, List.length_append, List.length_cons] at ih ⊢; omega

end ImapFlow
