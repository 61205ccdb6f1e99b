import Verif.Spec.TagProcess
import Verif.Proofs.HandleProcess

/-!
# C28: generated tags are unique and valid
-/

namespace ImapFlow

/-! ## Decimal numbers -/

theorem decimal_of_lt {n : Nat} (h : n < 10) : decimal n = [UInt8.ofNat (48 + n)] := by
  rw [decimal, if_pos h]

theorem decimal_of_ge {n : Nat} (h : ¬ n < 10) :
    decimal n = decimal (n / 10) ++ [UInt8.ofNat (48 + n % 10)] := by
  rw [decimal, if_neg h]

theorem decimal_ne_nil (n : Nat) : decimal n ≠ [] := by
  rw [decimal]; split <;> simp

theorem digit_toNat {d : Nat} (h : d < 10) : (UInt8.ofNat (48 + d)).toNat = 48 + d := by
  rw [UInt8.toNat_ofNat']
  exact Nat.mod_eq_of_lt (by omega)

theorem decimal_digits {n : Nat} : ∀ b ∈ decimal n, 48 ≤ b ∧ b ≤ 57 := by
  have digit : ∀ d, d < 10 → 48 ≤ UInt8.ofNat (48 + d) ∧ UInt8.ofNat (48 + d) ≤ 57 := by
    intro d hd
    have := digit_toNat hd
    constructor
    · rw [UInt8.le_iff_toNat_le, this]; simp
    · rw [UInt8.le_iff_toNat_le, this]; simp; omega
  induction n using Nat.strongRecOn with
  | ind n ih =>
    intro b hb
    by_cases h : n < 10
    · rw [decimal_of_lt h, List.mem_singleton] at hb
      subst hb
      exact digit n h
    · rw [decimal_of_ge h] at hb
      rcases List.mem_append.mp hb with hb | hb
      · exact ih (n / 10) (by omega) b hb
      · rw [List.mem_singleton] at hb
        subst hb
        exact digit _ (Nat.mod_lt _ (by omega))

theorem decimal_inj {m n : Nat} (h : decimal m = decimal n) : m = n := by
  induction m using Nat.strongRecOn generalizing n with
  | ind m ih =>
    by_cases hm : m < 10
    · by_cases hn : n < 10
      · rw [decimal_of_lt hm, decimal_of_lt hn, List.cons.injEq] at h
        have := congrArg UInt8.toNat h.1
        rw [digit_toNat hm, digit_toNat hn] at this
        omega
      · rw [decimal_of_lt hm, decimal_of_ge hn] at h
        have h1 := congrArg List.length h
        have h2 := List.length_pos_iff.mpr (decimal_ne_nil (n / 10))
        simp only [List.length_append, List.length_singleton] at h1
        omega
    · by_cases hn : n < 10
      · rw [decimal_of_ge hm, decimal_of_lt hn] at h
        have h1 := congrArg List.length h
        have h2 := List.length_pos_iff.mpr (decimal_ne_nil (m / 10))
        simp only [List.length_append, List.length_singleton] at h1
        omega
      · rw [decimal_of_ge hm, decimal_of_ge hn] at h
        obtain ⟨h1, h2⟩ := List.append_inj' h rfl
        have h3 := ih (m / 10) (by omega) h1
        rw [List.cons.injEq] at h2
        have := congrArg UInt8.toNat h2.1
        rw [digit_toNat (Nat.mod_lt _ (by omega)), digit_toNat (Nat.mod_lt _ (by omega))] at this
        omega

theorem dot_not_decimal (n : Nat) : DOT ∉ decimal n := by
  intro h
  have := (decimal_digits DOT h).1
  revert this
  decide

/-- A number followed by a dot or the end can be read back. -/
theorem decimal_append_inj {m n : Nat} {x y : Bytes} (hx : x = [] ∨ ∃ x', x = DOT :: x')
    (hy : y = [] ∨ ∃ y', y = DOT :: y') (h : decimal m ++ x = decimal n ++ y) : m = n ∧ x = y := by
  have : decimal m = decimal n := by
    rcases List.append_eq_append_iff.mp h with ⟨a, h1, h2⟩ | ⟨a, h1, h2⟩
    · cases a with
      | nil => rw [List.append_nil] at h1; exact h1.symm
      | cons b a =>
        exfalso
        have hb : b ∈ decimal n := by rw [h1]; simp
        rcases hx with rfl | ⟨x', rfl⟩
        · simp at h2
        · rw [List.cons_append, List.cons.injEq] at h2
          rw [← h2.1] at hb
          exact dot_not_decimal n hb
    · cases a with
      | nil => rw [List.append_nil] at h1; exact h1
      | cons b a =>
        exfalso
        have hb : b ∈ decimal m := by rw [h1]; simp
        rcases hy with rfl | ⟨y', rfl⟩
        · simp at h2
        · rw [List.cons_append, List.cons.injEq] at h2
          rw [← h2.1] at hb
          exact dot_not_decimal m hb
  rw [this] at h
  exact ⟨decimal_inj this, List.append_cancel_left h⟩

/-- A tag determines the generator and the counter. -/
theorem generate_inj {g g' : TagGenerator} {t t' : Option Bytes} (h : (g.generate t).2 = (g'.generate t').2) :
    g = g' := by
  have key : ∀ (g : TagGenerator) (t : Option Bytes), ∃ x, (x = [] ∨ ∃ x', x = DOT :: x') ∧
      (g.generate t).2 = decimal g.global.toNat ++ (DOT :: (decimal g.counter.toNat ++ x)) := by
    intro g t
    cases t with
    | none => exact ⟨[], .inl rfl, by simp [TagGenerator.generate]⟩
    | some t => exact ⟨DOT :: t, .inr ⟨t, rfl⟩, by simp [TagGenerator.generate]⟩
  obtain ⟨x, hx, h1⟩ := key g t
  obtain ⟨y, hy, h2⟩ := key g' t'
  rw [h1, h2] at h
  obtain ⟨h3, h4⟩ := decimal_append_inj (.inr ⟨_, rfl⟩) (.inr ⟨_, rfl⟩) h
  rw [List.cons.injEq] at h4
  obtain ⟨h5, -⟩ := decimal_append_inj hx hy h4.2
  obtain ⟨a, b⟩ := g
  obtain ⟨a', b'⟩ := g'
  rw [UInt64.toNat_inj] at h3 h5
  simp only at h3 h5
  rw [h3, h5]

/-! ## Uniqueness -/

/-- The number of tags of a generator. -/
def tagCount (i : Nat) (H : List (Nat × Tag)) : Nat := H.countP (fun x => x.1 == i)

/-- The generator `i` after `j` tags. -/
def nthTagGenerator (i j : Nat) : TagGenerator := { global := UInt64.ofNat i, counter := UInt64.ofNat j }

structure TagInv (P : TagProcess) (H : List (Nat × Tag)) : Prop where
  count : P.count = UInt64.ofNat P.generators.length
  gens : ∀ i g, P.generators[i]? = some g → g = nthTagGenerator i (tagCount i H)
  tags : ∀ x ∈ H, x.1 < P.generators.length ∧
    ∃ j t, j < tagCount x.1 H ∧ x.2 = ((nthTagGenerator x.1 j).generate t).2

theorem TagProcess.run_mono (P : TagProcess) (ops : List TagOp) :
    P.generators.length ≤ (P.run ops).1.generators.length := by
  induction ops generalizing P with
  | nil => exact Nat.le_refl _
  | cons op ops ih =>
    cases op with
    | create =>
      refine Nat.le_trans ?_ (ih _)
      simp
    | generate i t =>
      rw [TagProcess.run]
      cases hi : P.generators[i]? with
      | none => exact ih P
      | some g =>
        refine Nat.le_trans ?_ (ih _)
        simp

theorem TagInv.run {P : TagProcess} {H : List (Nat × Tag)} {ops : List TagOp} (h : TagInv P H)
    (hn : (H.map (·.2)).Nodup) (hb : (P.run ops).1.generators.length ≤ 2 ^ 64)
    (hc : ∀ i, tagCount i (H ++ (P.run ops).2) ≤ 2 ^ 64) : ((H ++ (P.run ops).2).map (·.2)).Nodup := by
  induction ops generalizing P H with
  | nil => simpa [TagProcess.run] using hn
  | cons op ops ih =>
    obtain ⟨h1, h2, h3⟩ := h
    cases op with
    | create =>
      have e : P.run (.create :: ops) =
          (⟨P.count + 1, P.generators ++ [⟨P.count, 0⟩]⟩ : TagProcess).run ops := by rw [TagProcess.run]; rfl
      rw [e] at hb hc ⊢
      refine ih (P := ⟨P.count + 1, P.generators ++ [⟨P.count, 0⟩]⟩) ⟨?_, ?_, ?_⟩ hn hb hc
      · simp only [List.length_append, List.length_singleton, h1]
        exact UInt64.ofNat_succ' _
      · intro i g hg
        simp only at hg
        rw [List.getElem?_append] at hg
        split at hg
        · exact h2 i g hg
        · rename_i hlt
          have hi : i = P.generators.length := by
            rcases Nat.eq_zero_or_pos (i - P.generators.length) with hx | hx
            · omega
            · rw [List.getElem?_eq_none (by simp; omega)] at hg
              cases hg
          subst hi
          simp only [Nat.sub_self, List.getElem?_cons_zero, Option.some.injEq] at hg
          have hz : tagCount P.generators.length H = 0 := by
            unfold tagCount
            rw [List.countP_eq_zero]
            intro x hx hxe
            have := (h3 x hx).1
            simp only [beq_iff_eq] at hxe
            omega
          rw [← hg, hz, h1]; rfl
      · intro x hx
        obtain ⟨h4, h5⟩ := h3 x hx
        exact ⟨by simp; omega, h5⟩
    | generate i t =>
      cases hi : P.generators[i]? with
      | none =>
        have e : P.run (.generate i t :: ops) = P.run ops := by rw [TagProcess.run, hi]
        rw [e] at hb hc ⊢
        exact ih ⟨h1, h2, h3⟩ hn hb hc
      | some g =>
        have hlt : i < P.generators.length := (List.getElem?_eq_some_iff.mp hi).1
        have hg := h2 i g hi
        have e : P.run (.generate i t :: ops) =
            (({ P with generators := P.generators.set i (g.generate t).1 } : TagProcess).run ops |>.1,
             (i, (g.generate t).2) ::
              (({ P with generators := P.generators.set i (g.generate t).1 } : TagProcess).run ops).2) := by
          rw [TagProcess.run, hi]
        have hmono := TagProcess.run_mono { P with generators := P.generators.set i (g.generate t).1 } ops
        rw [e] at hb hc ⊢
        simp only at hb hc ⊢
        simp only [List.length_set] at hmono
        rw [List.append_cons] at hc ⊢
        have hcnt : ∀ k, tagCount k (H ++ [(i, (g.generate t).2)]) = tagCount k H + if i = k then 1 else 0 := by
          intro k
          unfold tagCount
          rw [List.countP_append, List.countP_singleton]
          simp
        refine ih ⟨by simpa using h1, ?_, ?_⟩ ?_ hb hc
        · intro k g' hk
          simp only [List.getElem?_set] at hk
          rw [hcnt k]
          split at hk
          · rename_i hik
            subst hik
            cases hk
            rw [if_pos rfl, hg]
            simp only [TagGenerator.generate, nthTagGenerator, TagGenerator.mk.injEq, true_and]
            exact UInt64.ofNat_succ' _
          · rename_i hik
            rw [if_neg hik]
            exact h2 k g' hk
        · intro x hx
          simp only [List.length_set]
          rw [hcnt x.1]
          rcases List.mem_append.mp hx with hx | hx
          · obtain ⟨h4, j, t', h5, h6⟩ := h3 x hx
            exact ⟨h4, j, t', by omega, h6⟩
          · rw [List.mem_singleton] at hx
            subst hx
            refine ⟨hlt, tagCount i H, t, ?_, ?_⟩
            · simp
            · simp only [← hg]
        · rw [List.map_append, List.nodup_append]
          refine ⟨hn, by simp, ?_⟩
          intro a ha b hb' hab
          simp only [List.map_cons, List.map_nil, List.mem_singleton] at hb'
          subst hb'
          obtain ⟨x, hx, rfl⟩ := List.mem_map.mp ha
          obtain ⟨h4, j, t', h5, h6⟩ := h3 x hx
          rw [h6] at hab
          have hgg := generate_inj hab
          rw [hg] at hgg
          simp only [nthTagGenerator, TagGenerator.mk.injEq] at hgg
          have hxi : x.1 = i := UInt64.ofNat_inj' (by omega) (by omega) hgg.1
          rw [hxi] at h5
          have hci := hc i
          have hci2 : tagCount i H + 1 ≤ tagCount i (H ++ [(i, (g.generate t).2)] ++
              (({ P with generators := P.generators.set i (g.generate t).1 } : TagProcess).run ops).2) := by
            have e1 : ∀ A B : List (Nat × Tag), tagCount i (A ++ B) = tagCount i A + tagCount i B :=
              fun A B => List.countP_append
            have := hcnt i
            rw [if_pos rfl] at this
            rw [e1]
            omega
          have := UInt64.ofNat_inj' (by omega) (by omega) hgg.2
          omega

/-- The tags of all generators of a process are pairwise different, for every interleaving and all
random tokens. -/
theorem C28_tags_unique (ops : List TagOp) (hb : (TagProcess.start.run ops).1.generators.length ≤ 2 ^ 64)
    (hc : ∀ i, (TagProcess.start.run ops).2.countP (fun x => x.1 == i) ≤ 2 ^ 64) :
    ((TagProcess.start.run ops).2.map (·.2)).Nodup :=
  TagInv.run (H := []) ⟨rfl, fun i s h => by simp [TagProcess.start] at h, by simp⟩ List.nodup_nil hb hc

/-! ## Validity -/

theorem alphanumeric_tagChar {b : UInt8} (h : IsAlphanumeric b) : IsTagChar b := by
  have : ∀ b : UInt8, ((48 ≤ b ∧ b ≤ 57) ∨ (65 ≤ b ∧ b ≤ 90) ∨ (97 ≤ b ∧ b ≤ 122)) →
      33 ≤ b ∧ b ≤ 126 ∧ b ∉ [40, 41, 123, 37, 42, 34, 92, 43] := by
    intro b hb
    simp only [UInt8.le_iff_toNat_le, List.mem_cons, List.not_mem_nil, or_false, ← UInt8.toNat_inj] at hb ⊢
    simp only [UInt8.reduceToNat] at hb ⊢
    omega
  exact this b h

/-- Every generated tag is a non-empty sequence of tag characters. -/
theorem C28_tags_valid (g : TagGenerator) (token : Option Bytes) (ht : IsToken token) :
    (g.generate token).2 ≠ [] ∧ ∀ b ∈ (g.generate token).2, IsTagChar b := by
  have hd : ∀ n, ∀ b ∈ decimal n, IsTagChar b := fun n b hb =>
    alphanumeric_tagChar (.inl (decimal_digits b hb))
  have hdot : IsTagChar DOT := by unfold IsTagChar DOT; decide
  cases token with
  | none =>
    refine ⟨by simp [TagGenerator.generate], ?_⟩
    intro b hb
    simp only [TagGenerator.generate, List.mem_append, List.mem_singleton] at hb
    rcases hb with (hb | rfl) | hb
    · exact hd _ b hb
    · exact hdot
    · exact hd _ b hb
  | some t =>
    refine ⟨by simp [TagGenerator.generate], ?_⟩
    intro b hb
    simp only [TagGenerator.generate, List.mem_append, List.mem_singleton] at hb
    rcases hb with (((hb | rfl) | hb) | rfl) | hb
    · exact hd _ b hb
    · exact hdot
    · exact hd _ b hb
    · exact hdot
    · exact alphanumeric_tagChar (ht.2 b hb)

/-- Two generators, debug and release tags. -/
example : (TagProcess.start.run [.create, .create, .generate 0 none, .generate 1 none, .generate 1 none,
      .generate 0 (some [97, 98, 99, 100, 101, 102, 103, 48])]).2 =
    [(0, [48, 46, 48]), (1, [49, 46, 48]), (1, [49, 46, 49]),
     (0, [48, 46, 49, 46, 97, 98, 99, 100, 101, 102, 103, 48])] := by
  decide +kernel

/-- Numbers with several digits. -/
example : (TagGenerator.generate ⟨12, 345⟩ none).2 = [49, 50, 46, 51, 52, 53] := by decide +kernel

end ImapFlow
