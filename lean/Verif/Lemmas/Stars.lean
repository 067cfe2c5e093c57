import Verif.SpecRuleLaws
import Verif.Props.Bounds
import Verif.Lemmas.ParseSafe
/-
Redundant stars in a pattern make no difference to where it is found, nor to how far the search reads.
-/
namespace AdBlock
open Spec

/-- Two lists of parts which make no difference, whatever is left of the address. -/
structure SameParts (ps ps' : List Bytes) (u : Bytes) : Prop where
  placed : PlacedParts ps' u ↔ PlacedParts ps u
  past : PartsGoPast true ps' u ↔ PartsGoPast true ps u

theorem stars_drop {ps : List Bytes} {u : Bytes} {k : Nat} (h : PlacedParts ps (u.drop k)) : PlacedParts ps u := by
  cases ps with
  | nil => exact trivial
  | cons p ps =>
    rcases h with h | ⟨h1, h2, j, h3, h4, h5⟩
    · exact .inl h
    · rw [List.length_drop] at h2 h3
      rw [List.drop_drop] at h4 h5
      refine .inr ⟨h1, by omega, k + j, by omega, h4, ?_⟩
      rw [show k + j + p.length = k + (j + p.length) by omega]
      exact h5

/-- An empty part at the beginning makes no difference as long as something is left of the address. -/
theorem sameParts_front {ps : List Bytes} (hps : ps ≠ []) {u : Bytes} (hu : u ≠ []) : SameParts ps ([] :: ps) u := by
  have hlen : 0 < u.length := List.length_pos_iff.2 hu
  constructor
  · constructor
    · rintro (⟨-, h⟩ | ⟨-, -, k, -, -, h⟩)
      · exact absurd h hps
      · exact stars_drop h
    · exact fun h => .inr ⟨by decide, by simp, 0, hlen, trivial, h⟩
  · rw [PartsGoPast, if_neg (fun h => hps h.2)]
    constructor
    · rintro (⟨-, k, -, ⟨a, b, h, -⟩, -⟩ | ⟨k, -, ⟨-, -, h1⟩, h2⟩)
      · simp at h
      · have : k = 0 := by
          rcases Nat.eq_zero_or_pos k with h | h
          · exact h
          · exact absurd trivial (h1 0 h)
        subst this
        exact h2
    · exact fun h => .inr ⟨0, ⟨by decide, by simp⟩, ⟨hlen, trivial, fun j hj => absurd hj (by omega)⟩, h⟩

/-- Nor before another part that is not empty. -/
theorem sameParts_doubled {p : Bytes} {ps : List Bytes} (hp : p ≠ []) (u : Bytes) : SameParts (p :: ps) ([] :: p :: ps) u := by
  by_cases hu : u = []
  · subst hu
    constructor
    · constructor
      · rintro (⟨-, h⟩ | ⟨-, -, k, h, -⟩)
        · cases h
        · exact absurd h (by simp)
      · rintro (⟨h, -⟩ | ⟨-, -, k, h, -⟩)
        · exact absurd h hp
        · exact absurd h (by simp)
    · rw [PartsGoPast, PartsGoPast, if_neg (by simp), if_neg (fun h => hp h.1)]
      constructor
      · rintro (⟨-, k, h, -⟩ | ⟨k, -, ⟨h, -⟩, -⟩) <;> exact absurd h (by simp)
      · rintro (⟨-, k, h, -⟩ | ⟨k, -, ⟨h, -⟩, -⟩) <;> exact absurd h (by simp)
  · exact sameParts_front (by simp) hu

/-- Nor at the end, behind a part that is not empty. -/
theorem sameParts_back {p : Bytes} (hp : p ≠ []) (u : Bytes) : SameParts [p] [p, []] u := by
  constructor
  · constructor
    · rintro (⟨h, -⟩ | ⟨h1, h2, k, h3, h4, -⟩)
      · exact absurd h hp
      · exact .inr ⟨h1, h2, k, h3, h4, trivial⟩
    · rintro (⟨h, -⟩ | ⟨h1, h2, k, h3, h4, -⟩)
      · exact absurd h hp
      · exact .inr ⟨h1, h2, k, h3, h4, .inl ⟨rfl, rfl⟩⟩
  · rw [PartsGoPast, PartsGoPast, if_neg (fun h => hp h.1), if_neg (fun h => hp h.1)]
    constructor
    · rintro (h | ⟨k, h1, h2, h3⟩)
      · exact .inl h
      · rw [PartsGoPast, if_pos ⟨rfl, rfl⟩] at h3
        cases h3
    · rintro (h | ⟨k, h1, h2, h3⟩)
      · exact .inl h
      · exact absurd h3 id

theorem sameParts_append {ps ps' : List Bytes} (hps : ps ≠ []) (hps' : ps' ≠ []) (h : ∀ u, SameParts ps ps' u) (xs : List Bytes) (u : Bytes) :
    SameParts (xs ++ ps) (xs ++ ps') u := by
  induction xs generalizing u with
  | nil => exact h u
  | cons x xs ih =>
    constructor
    · simp only [List.cons_append, PlacedParts, List.append_eq_nil_iff, hps, hps', and_false, false_or, (ih _).placed]
    · simp only [List.cons_append, PartsGoPast, List.append_eq_nil_iff, hps, hps', and_false, if_false, (ih _).past]

theorem infix_parts {sep : Byte} {d w : Bytes} (hs : sep ∉ w) : w <:+: d ↔ ∃ p ∈ splitOn sep d, w <:+: p := by
  refine ⟨fun h => infix_part h hs, ?_⟩
  rintro ⟨p, hp, h⟩
  obtain ⟨a, b, rfl, -⟩ := mem_splitOn_infix hp
  exact h.trans ⟨a, b, rfl⟩

theorem not_infix_nil {w : Bytes} (hw : w ≠ []) : ¬ w <:+: [] := fun h => hw (List.infix_nil.1 h)

theorem extraStars_same {t t' : Bytes} (h : ExtraStars t t') (ht : t ≠ []) : t' ≠ [] ∧
    (∀ u, u ≠ [] → SameParts (splitOn ch%'*' t) (splitOn ch%'*' t') u) ∧
    ∀ w, ch%'*' ∉ w → w ≠ [] → (w <:+: t' ↔ w <:+: t) := by
  induction h with
  | same => exact ⟨ht, fun u _ => ⟨Iff.rfl, Iff.rfl⟩, fun w _ _ => Iff.rfl⟩
  | @front t' _ ih =>
    obtain ⟨-, h2, h3⟩ := ih
    refine ⟨by simp, fun u hu => ?_, fun w hw hne => ?_⟩
    · rw [splitOn_cons_sep]
      have := sameParts_front (splitOn_ne_nil ch%'*' t') hu
      exact ⟨this.placed.trans (h2 u hu).placed, this.past.trans (h2 u hu).past⟩
    · rw [infix_parts hw, splitOn_cons_sep, ← h3 w hw hne, infix_parts (d := t') hw]
      simp [not_infix_nil hne]
  | @doubled a c b _ hc ih =>
    obtain ⟨-, h2, h3⟩ := ih
    obtain ⟨p, ps, hp⟩ := List.exists_cons_of_ne_nil (splitOn_ne_nil ch%'*' b)
    have e1 : splitOn ch%'*' (a ++ ch%'*' :: c :: b) = splitOn ch%'*' a ++ (c :: p) :: ps := by
      rw [splitOn_append, splitOn_cons_of_ne hc hp]
    have e2 : splitOn ch%'*' (a ++ ch%'*' :: ch%'*' :: c :: b) = splitOn ch%'*' a ++ [] :: (c :: p) :: ps := by
      rw [splitOn_append, splitOn_cons_sep, splitOn_cons_of_ne hc hp]
    refine ⟨by simp, fun u hu => ?_, fun w hw hne => ?_⟩
    · have := sameParts_append (by simp) (by simp) (sameParts_doubled (p := c :: p) (ps := ps) (by simp)) (splitOn ch%'*' a) u
      rw [← e1, ← e2] at this
      exact ⟨this.placed.trans (h2 u hu).placed, this.past.trans (h2 u hu).past⟩
    · rw [← h3 w hw hne, infix_parts hw, infix_parts (d := a ++ ch%'*' :: c :: b) hw, e1, e2]
      simp only [List.mem_append, List.mem_cons]
      constructor
      · rintro ⟨x, hx | rfl | hx, h⟩
        · exact ⟨x, .inl hx, h⟩
        · exact absurd h (not_infix_nil hne)
        · exact ⟨x, .inr hx, h⟩
      · rintro ⟨x, hx | hx, h⟩
        · exact ⟨x, .inl hx, h⟩
        · exact ⟨x, .inr (.inr hx), h⟩
  | @back t' _ hl ih =>
    obtain ⟨h1, h2, h3⟩ := ih
    have e : splitOn ch%'*' (t' ++ bs%"*") = splitOn ch%'*' t' ++ [[]] := splitOn_append _ _ _
    refine ⟨by simp, fun u hu => ?_, fun w hw hne => ?_⟩
    · obtain ⟨xs, p, hp⟩ : ∃ xs p, splitOn ch%'*' t' = xs ++ [p] :=
        ⟨_, _, (List.dropLast_concat_getLast (splitOn_ne_nil ch%'*' t')).symm⟩
      have hne : p ≠ [] := by
        rintro rfl
        rcases splitOn_last (sep := ch%'*') (d := t') (by rw [hp]; simp) with h | h
        · exact h1 h
        · exact hl h
      have := sameParts_append (by simp) (by simp) (sameParts_back hne) xs u
      rw [show xs ++ [p, []] = (xs ++ [p]) ++ [[]] by simp, ← hp, ← e] at this
      exact ⟨this.placed.trans (h2 u hu).placed, this.past.trans (h2 u hu).past⟩
    · rw [← h3 w hw hne, infix_parts hw, infix_parts (d := t') hw, e]
      simp only [List.mem_append, List.mem_singleton]
      constructor
      · rintro ⟨x, hx | rfl, h⟩
        · exact ⟨x, hx, h⟩
        · exact absurd h (not_infix_nil hne)
      · rintro ⟨x, hx, h⟩
        exact ⟨x, .inl hx, h⟩

end AdBlock
