import Verif.Proofs.FullStreamRun
import Verif.Spec.FullReturns

/-!
# Neighbouring items of a stream with or without TLS
-/

namespace ImapFlow

variable {K σ ε ev ι : Type}

/-- An item and the one behind it; `none` is the beginning or the end. -/
structure Neighbours (a b : Option (FullItem ε ev ι)) : Prop where
  returned : ∀ r, b = some (.stream (.returned r)) → ∃ x, a = some x ∧ x.Explains r
  event : ∀ e, a = some (.stream (.poll (.ok e))) → b = some (.stream (.returned (.ok e)))
  error : ∀ e, a = some (.stream (.poll (.error (.error e)))) → b = some (.stream (.returned (.error (.state e))))
  read : a = some (.stream (.read [])) → b = some (.stream (.returned (.error .closed)))
  wrote : a = some (.stream (.wrote [])) →
    b = some (.stream (.returned (.error .closed))) ∨ b = some (.stream (.flushed (.error .closed)))
  failed : a = some (.stream .failed) →
    b = some (.stream (.returned (.error .io))) ∨ b = some (.stream (.flushed (.error .io)))
  refused : a = some .refused → b = some (.stream (.returned (.error .io)))

/-- All neighbours in a list behind `a`. -/
def AllNeighbours : Option (FullItem ε ev ι) → List (FullItem ε ev ι) → Prop
  | a, [] => Neighbours a none
  | a, x :: T => Neighbours a (some x) ∧ AllNeighbours (some x) T

theorem Neighbours.join {a b : Option (FullItem ε ev ι)} (h1 : Neighbours a none) (h2 : Neighbours none b) :
    Neighbours a b where
  returned r hr := by obtain ⟨x, h, -⟩ := h2.returned r hr; cases h
  event e he := by have := h1.event e he; cases this
  error e he := by have := h1.error e he; cases this
  read he := by have := h1.read he; cases this
  wrote he := by rcases h1.wrote he with h | h <;> cases h
  failed he := by rcases h1.failed he with h | h <;> cases h
  refused he := by have := h1.refused he; cases this

theorem AllNeighbours.append {T U : List (FullItem ε ev ι)} {a : Option (FullItem ε ev ι)} (h1 : AllNeighbours a T)
    (h2 : AllNeighbours none U) : AllNeighbours a (T ++ U) := by
  induction T generalizing a with
  | nil =>
    cases U with
    | nil => exact h1
    | cons y U => exact ⟨Neighbours.join h1 h2.1, h2.2⟩
  | cons x T ih => exact ⟨h1.1, ih h1.2⟩

theorem AllNeighbours.at {pre post : List (FullItem ε ev ι)} {x : FullItem ε ev ι} {a : Option (FullItem ε ev ι)}
    (h : AllNeighbours a (pre ++ x :: post)) :
    (∃ y, Neighbours y (some x) ∧ ∀ z, y = some z → (pre = [] ∧ a = some z) ∨ ∃ pre', pre = pre' ++ [z]) ∧
    Neighbours (some x) post.head? := by
  induction pre generalizing a with
  | nil =>
    refine ⟨⟨a, h.1, fun z hz => Or.inl ⟨rfl, hz⟩⟩, ?_⟩
    cases post with
    | nil => exact h.2
    | cons y post => exact h.2.1
  | cons w pre ih =>
    obtain ⟨⟨y, h1, h2⟩, h3⟩ := ih h.2
    refine ⟨⟨y, h1, fun z hz => Or.inr ?_⟩, h3⟩
    rcases h2 z hz with ⟨rfl, hw⟩ | ⟨pre', rfl⟩
    · cases hw; exact ⟨[], rfl⟩
    · exact ⟨w :: pre', rfl⟩

namespace FullStream

theorem Advanced.neighbours {M : Machine σ ε ev ι} {c c' : FullStream K σ} {T : List (FullItem ε ev ι)}
    (h : Advanced M c c' T) {x : StreamItem ε ev ι} (hx : Neighbours (some (.stream x)) none) :
    AllNeighbours (some (.stream x)) T := by
  have hd : ∀ b, Neighbours (some (FullItem.stream (.deliver b : StreamItem ε ev ι))) none := by
    intro b; constructor <;> simp
  have fit : ∀ {a b : StreamItem ε ev ι}, Neighbours (some (.stream a)) none → (∀ r, b ≠ .returned r) →
      Neighbours (some (.stream a)) (some (.stream b)) := by
    intro a b ha hb
    exact Neighbours.join ha (by constructor <;> simp [hb])
  have prov : ∀ {b s s1} {D : List (StreamItem ε ev ι)} {U : List (FullItem ε ev ι)}, Provides M b s s1 D →
      (∀ y : StreamItem ε ev ι, Neighbours (some (.stream y)) none → AllNeighbours (some (.stream y)) U) →
      AllNeighbours (some (.stream x)) (D.map .stream ++ U) := by
    rintro b s s1 D U (⟨-, -, rfl⟩ | ⟨-, -, rfl⟩) hU
    · exact hU x hx
    · exact ⟨fit hx (by simp), hU _ (hd b)⟩
  cases h with
  | hung => exact ⟨Neighbours.join hx (by constructor <;> simp), by constructor <;> simp⟩
  | broken => exact ⟨Neighbours.join hx (by constructor <;> simp), by constructor <;> simp⟩
  | inputPanic => exact ⟨fit hx (by simp), by constructor <;> simp⟩
  | nextPanic _ g => exact prov g fun y hy => ⟨fit hy (by simp), by constructor <;> simp⟩
  | @returned _ _ _ D _ _ r _ g _ hr =>
    rw [List.map_append]
    refine prov g fun y hy => ?_
    rcases r with (io | e) | e
    · exact (hr io rfl).elim
    · refine ⟨fit hy (by simp), ⟨?_, by constructor <;> simp⟩⟩
      constructor <;> simp [FullItem.Explains, StreamItem.Explains]
    · refine ⟨fit hy (by simp), ⟨?_, by constructor <;> simp⟩⟩
      constructor <;> simp [FullItem.Explains, StreamItem.Explains]
  | waits _ g =>
    rw [List.map_append]
    exact prov g fun y hy => ⟨fit hy (by simp), by constructor <;> simp⟩
  | refused _ g =>
    rw [List.map_append, List.append_assoc]
    refine prov g fun y hy => ⟨fit hy (by simp), ⟨?_, ?_, ?_⟩⟩
    · constructor <;> simp
    · constructor <;> simp [FullItem.Explains]
    · constructor <;> simp

theorem Stepped.neighbours {M : Machine σ ε ev ι} {c c' : FullStream K σ} {T : List (FullItem ε ev ι)}
    (h : Stepped M c c' T) : AllNeighbours none T := by
  cases h with
  | user => exact ⟨by constructor <;> simp, by constructor <;> simp⟩
  | userPanic => exact ⟨by constructor <;> simp, by constructor <;> simp, by constructor <;> simp⟩
  | callNext _ g => exact ⟨by constructor <;> simp, g.neighbours (by constructor <;> simp)⟩
  | read _ hb g => exact ⟨by constructor <;> simp, g.neighbours (by constructor <;> simp [hb])⟩
  | written _ hb _ g => exact ⟨by constructor <;> simp, g.neighbours (by constructor <;> simp [hb])⟩
  | wrote _ hb _ g =>
    rcases g with ⟨-, rfl, -⟩ | ⟨-, -, rfl, -⟩
    · exact ⟨by constructor <;> simp, by constructor <;> simp [hb]⟩
    · exact ⟨by constructor <;> simp, by constructor <;> simp [hb], by constructor <;> simp⟩
  | flush _ _ g =>
    rcases g with ⟨-, rfl, -⟩ | ⟨-, rfl, -⟩
    · exact ⟨by constructor <;> simp, by constructor <;> simp, by constructor <;> simp⟩
    · exact ⟨by constructor <;> simp, by constructor <;> simp⟩
  | ended _ g =>
    rcases g with ⟨-, rfl, rfl⟩ | ⟨-, rfl, rfl⟩ | ⟨-, rfl, rfl⟩ | ⟨-, rfl, rfl⟩ | ⟨-, rfl, rfl⟩ <;>
      exact ⟨by constructor <;> simp, by constructor <;> simp [FullItem.Explains, StreamItem.Explains],
        by constructor <;> simp⟩
  | dropped => exact ⟨by constructor <;> simp, by constructor <;> simp⟩

theorem run_neighbours {M : Machine σ ε ev ι} {as : List (StreamAct ι)} {c c' : FullStream K σ}
    {T : List (FullItem ε ev ι)} (h : run M c as = some (c', T)) : AllNeighbours none T := by
  induction as generalizing c T with
  | nil => cases h; constructor <;> simp
  | cons a as ih =>
    obtain ⟨c1, T1, T2, h1, h2, rfl⟩ := run_cons h
    exact (step_cases h1).neighbours.append (ih h2)

end FullStream

end ImapFlow
