import Verif.Proofs.ClientView

/-!
# Lemmas on the commands that ended
-/

namespace ImapFlow

theorem ClientView.foldl_ended (T : List CItem) (v : ClientView) : v.ended <+: (T.foldl observe v).ended := by
  induction T generalizing v with
  | nil => exact List.prefix_refl _
  | cons i T ih =>
    refine List.IsPrefix.trans ?_ (ih _)
    have he : ∀ (v : ClientView) e, v.ended <+: (v.event e).ended := by
      intro v e
      unfold event
      split
      · exact List.prefix_append ..
      · split <;> exact List.prefix_refl _
    cases i with
    | setAuth d r => cases r <;> exact List.prefix_refl _
    | setDone r => cases r <;> exact List.prefix_refl _
    | sent e => exact he _ _
    | received b e => exact he { v with consumed := v.consumed ++ b } e
    | _ => exact List.prefix_refl _

theorem ClientView.sent_of_terminal {T : List CItem} {j : CItem} {e : ClientEvent} (hj : j.terminal? = some e) :
    (of (T ++ [j])).sent = [] := by
  have ht : e.isTerminal = true := by
    unfold CItem.terminal? at hj
    rw [Option.filter_eq_some_iff] at hj
    exact hj.2
  rw [of_snoc]
  cases j with
  | sent e' =>
    simp only [CItem.terminal?, CItem.event?, Option.filter_eq_some_iff, Option.some.injEq] at hj
    cases hj.1
    simp only [observe, event, ht, if_true, terminate]
  | received w e' =>
    simp only [CItem.terminal?, CItem.event?, Option.filter_eq_some_iff, Option.some.injEq] at hj
    cases hj.1
    simp only [observe, event, ht, if_true, terminate]
  | _ => simp [CItem.terminal?, CItem.event?] at hj

end ImapFlow
