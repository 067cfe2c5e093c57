import Verif.SpecDocumented
import Verif.Props.Covered
/-
The rules as the documentation has them.
-/
namespace AdBlock
open Spec

theorem sep_not_ordinary : ∀ c ∈ separators, ¬ Ordinary c := by decide +kernel

/-- A text stands for itself, with or without special characters. -/
theorem stands_self (t w : Bytes) : Stands t (t ++ w) w := by
  induction t with
  | nil => exact .nil
  | cons c t ih =>
    by_cases h1 : c = ch%'*'
    · subst h1; exact .star (x := [ch%'*']) ih
    · by_cases h2 : c = ch%'^'
      · subst h2; exact .separator (by decide) ih
      · exact .char h1 h2 ih

theorem stands_append {p p' u v w : Bytes} (h : Stands p u v) (h' : Stands p' v w) : Stands (p ++ p') u w := by
  induction h with
  | nil => exact h'
  | star _ ih => exact .star (ih h')
  | separator hc _ ih => exact .separator hc (ih h')
  | last _ ih => exact .last (ih h')
  | char h1 h2 _ ih => exact .char h1 h2 (ih h')

/-- A text without special characters only stands for itself. -/
theorem stands_plain {t u w : Bytes} (h : Stands t u w) (h1 : ch%'*' ∉ t) (h2 : ch%'^' ∉ t) : u = t ++ w := by
  induction h with
  | nil => rfl
  | star _ _ => simp at h1
  | separator _ _ _ => simp at h2
  | last _ _ => simp at h2
  | char _ _ _ ih =>
    simp only [List.mem_cons, not_or] at h1 h2
    rw [ih h1.2 h2.2]
    rfl

theorem stands_split {p p' u w : Bytes} (h : Stands (p ++ p') u w) : ∃ v, Stands p u v ∧ Stands p' v w := by
  induction p generalizing u with
  | nil => exact ⟨u, .nil, h⟩
  | cons c p ih =>
    rw [List.cons_append] at h
    generalize hq : p ++ p' = q at h
    cases h with
    | star h => subst hq; obtain ⟨v, h1, h2⟩ := ih h; exact ⟨v, .star h1, h2⟩
    | separator hc h => subst hq; obtain ⟨v, h1, h2⟩ := ih h; exact ⟨v, .separator hc h1, h2⟩
    | last h => subst hq; obtain ⟨v, h1, h2⟩ := ih h; exact ⟨v, .last h1, h2⟩
    | char hc hc' h => subst hq; obtain ⟨v, h1, h2⟩ := ih h; exact ⟨v, .char hc hc' h1, h2⟩

/-- what a part without stars is compared with, it stands for -/
theorem stands_partAt {p u : Bytes} (hs : ch%'*' ∉ p) (h : PartAt p u) : Stands p u (u.drop p.length) := by
  induction p generalizing u with
  | nil => exact .nil
  | cons c p ih =>
    simp only [List.mem_cons, not_or] at hs
    cases u with
    | nil =>
      obtain ⟨rfl, rfl⟩ := h
      exact .last .nil
    | cons d u =>
      obtain ⟨h1, h2⟩ := h
      have h3 := ih hs.2 h2
      rw [List.length_cons, List.drop_succ_cons]
      rcases h1 with rfl | ⟨rfl, h1⟩
      · by_cases hc : c = ch%'^'
        · subst hc; exact .separator (by decide) h3
        · exact .char (Ne.symm hs.1) hc h3
      · exact .separator (sep_not_ordinary d h1) h3

/-- the parts with stars between them -/
def joinStars : List Bytes → Bytes
  | [] => []
  | [p] => p
  | p :: ps => p ++ ch%'*' :: joinStars ps

theorem joinStars_splitOn (s : Bytes) : joinStars (splitOn ch%'*' s) = s ∧ (∀ p ∈ splitOn ch%'*' s, ch%'*' ∉ p) ∧ splitOn ch%'*' s ≠ [] := by
  induction s with
  | nil => exact ⟨rfl, by simp [splitOn], by simp [splitOn]⟩
  | cons c s ih =>
    obtain ⟨h1, h2, h3⟩ := ih
    by_cases hc : c = ch%'*'
    · subst hc
      rw [show splitOn ch%'*' (ch%'*' :: s) = [] :: splitOn ch%'*' s by simp [splitOn]]
      refine ⟨?_, ?_, by simp⟩
      · cases hsp : splitOn ch%'*' s with
        | nil => exact absurd hsp h3
        | cons p ps => rw [hsp] at h1; simp [joinStars, h1]
      · intro p hp
        rcases List.mem_cons.1 hp with rfl | hp
        · simp
        · exact h2 p hp
    · cases hsp : splitOn ch%'*' s with
      | nil => exact absurd hsp h3
      | cons p ps =>
        have e : splitOn ch%'*' (c :: s) = (c :: p) :: ps := by simp [splitOn, hsp, hc]
        rw [hsp] at h1 h2
        refine ⟨?_, ?_, by simp [e]⟩
        · rw [e]
          cases ps with
          | nil => simpa [joinStars] using h1
          | cons p' ps => simpa [joinStars] using h1
        · rw [e]
          intro x hx
          rcases List.mem_cons.1 hx with rfl | hx
          · simp only [List.mem_cons, not_or]
            exact ⟨Ne.symm hc, h2 p List.mem_cons_self⟩
          · exact h2 x (List.mem_cons_of_mem _ hx)

theorem stands_parts {ps : List Bytes} {u : Bytes} (hs : ∀ p ∈ ps, ch%'*' ∉ p) (hne : ps ≠ []) (h : PlacedParts ps u) :
    ∃ a v w, u = a ++ v ∧ Stands (joinStars ps) v w := by
  induction ps generalizing u with
  | nil => exact absurd rfl hne
  | cons p ps ih =>
    rcases h with ⟨rfl, rfl⟩ | ⟨-, -, k, -, h1, h2⟩
    · exact ⟨[], u, u, rfl, .nil⟩
    · have h3 := stands_partAt (hs p List.mem_cons_self) h1
      refine ⟨u.take k, u.drop k, ?_⟩
      cases ps with
      | nil => exact ⟨_, (List.take_append_drop k u).symm, h3⟩
      | cons p' ps =>
        obtain ⟨a, v, w, h4, h5⟩ := ih (fun p hp => hs p (List.mem_cons_of_mem _ hp)) (by simp) h2
        refine ⟨w, (List.take_append_drop k u).symm, stands_append h3 ?_⟩
        rw [List.drop_drop, h4]
        exact .star h5

theorem stands_placed {t u : Bytes} (h : Placed t u) : ∃ a v w, u = a ++ v ∧ Stands t v w := by
  obtain ⟨h1, h2, h3⟩ := joinStars_splitOn t
  obtain ⟨a, v, w, h4, h5⟩ := stands_parts h2 h3 h
  exact ⟨a, v, w, h4, h1 ▸ h5⟩

theorem stands_caret {rest : Bytes} (h : rest = [] ∨ ∃ c r, rest = c :: r ∧ IsSep c) : ∃ w, Stands bs%"^" rest w := by
  rcases h with rfl | ⟨c, r, rfl, hc⟩
  · exact ⟨[], .last .nil⟩
  · exact ⟨r, .separator (sep_not_ordinary c hc) .nil⟩

/-- Rules other than those with two bars, and those that consist of a host, are not compared successfully with an address they are not
meant for. -/
theorem fits_meant {r : RuleText} {q : Request} (hq : q.Web) (ho : r.odd = none) (hr : r.anchor ≠ .host ∨ r.HostOnly) (h : r.AddressFits q) :
    r.AddressMeant q := by
  unfold RuleText.AddressFits at h
  unfold RuleText.AddressMeant
  cases ha : r.anchor with
  | none =>
    cases hb : r.rightBar <;> simp only [ha, hb] at h
    · obtain ⟨a, v, w, h1, h2⟩ := stands_placed h
      exact ⟨a, v, w, h1, h2, by simp⟩
    · obtain ⟨a, h⟩ := h
      exact ⟨a, r.text, [], h.symm, by simpa using stands_self r.text [], fun _ => rfl⟩
  | left =>
    cases hb : r.rightBar <;> simp only [ha, hb] at h
    · obtain ⟨w, h⟩ := h
      exact ⟨w, h ▸ stands_self _ _, by simp⟩
    · exact ⟨[], by rw [← h]; simpa using stands_self r.text [], fun _ => rfl⟩
  | host =>
    obtain ⟨-, h1, h2⟩ := hr.resolve_left (fun h => h ha)
    have hb := h1 ho
    simp only [ha, hb] at h
    have hw : r.written = r.text := by unfold RuleText.written; rw [ho]
    rw [hw] at h2
    have hs : ∃ w, Stands r.text (r.hostPart ++ q.rest) w := by
      rcases h2 with h2 | h2
      · exact ⟨q.rest, by rw [← h2]; exact stands_self _ _⟩
      · obtain ⟨w, hc⟩ := stands_caret hq.rest
        refine ⟨w, ?_⟩
        rw [h2]
        exact stands_append (stands_self _ _) hc
    obtain ⟨w, hs⟩ := hs
    rcases h.1 with h3 | ⟨x, h3⟩
    · exact ⟨[], r.hostPart, w, h3, .inl rfl, hs, by simp [hb]⟩
    · exact ⟨x ++ bs%".", r.hostPart, w, by rw [h3]; simp, .inr ⟨x, rfl⟩, hs, by simp [hb]⟩

theorem partAt_caret {h rest : Bytes} (hr : rest = [] ∨ ∃ c r, rest = c :: r ∧ IsSep c) : PartAt (h ++ bs%"^") (h ++ rest) := by
  induction h with
  | nil =>
    rcases hr with rfl | ⟨c, r, rfl, hc⟩
    · exact ⟨rfl, rfl⟩
    · exact ⟨.inr ⟨rfl, hc⟩, trivial⟩
  | cons c h ih => exact ⟨.inl rfl, ih⟩

/-- Simple rules are also compared successfully with every address they are meant for. -/
theorem simple_meant {r : RuleText} {q : Request} (hq : q.Web) (hr : r.Simple) (hhost : ∀ c ∈ q.host, Ordinary c) :
    r.AddressFits q ↔ r.AddressMeant q := by
  obtain ⟨ho, hr⟩ := hr
  rcases hr with ⟨hne, h1, h2⟩ | ⟨ha, hb, h, hh, ht, hord⟩
  · refine ⟨fits_meant hq ho (.inl hne), fun hm => ?_⟩
    unfold RuleText.AddressMeant at hm
    unfold RuleText.AddressFits
    cases ha : r.anchor with
    | none =>
      rw [ha] at hm
      obtain ⟨a, u, w, h3, h4, h5⟩ := hm
      have h6 := stands_plain h4 h1 h2
      cases hb : r.rightBar
      · show Placed r.text q.url
        by_cases hnil : r.text = []
        · rw [hnil]
          exact .inl ⟨rfl, rfl⟩
        · have hpos : 0 < r.text.length := List.length_pos_iff.2 hnil
          rw [placed_single h1 hnil]
          rw [h3, h6]
          refine ⟨?_, by simp only [List.length_append]; omega, a.length, by simp only [List.length_append]; omega, ?_⟩
          · rintro h; rw [h] at h2; simp at h2
          · rw [List.drop_left]
            exact partAt_self_append _ _
      · rw [h5 hb, List.append_nil] at h6
        exact ⟨a, by rw [h3, h6]⟩
    | left =>
      rw [ha] at hm
      obtain ⟨w, h4, h5⟩ := hm
      have h6 := stands_plain h4 h1 h2
      cases hb : r.rightBar
      · exact ⟨w, h6.symm⟩
      · rw [h5 hb, List.append_nil] at h6
        exact h6.symm
    | host => exact absurd ha hne
  · have hsep : ∀ c ∈ h, ¬ IsSep c := fun c hc hs => sep_not_ordinary c hs (hord c hc)
    have hpart : r.hostPart = h := by
      unfold RuleText.hostPart
      rw [ho, ht]
      simp only
      rw [List.takeWhile_append_of_pos (by simpa using hsep)]
      simp [show IsSep ch%'^' by decide]
    have hstar : ch%'*' ∉ r.text := by
      rw [ht]
      intro hm
      rcases List.mem_append.1 hm with hm | hm
      · exact absurd (hord _ hm) (by decide)
      · simp at hm
    refine ⟨fits_meant hq ho (.inr ⟨ha, fun _ => hb, .inr (by unfold RuleText.written; rw [ho, hpart]; exact ht)⟩), fun hm => ?_⟩
    unfold RuleText.AddressMeant at hm
    unfold RuleText.AddressFits
    rw [ha] at hm
    simp only [ha, hb]
    obtain ⟨a, b, w, h3, h4, h5, -⟩ := hm
    rw [ht] at h5
    obtain ⟨v, h6, h7⟩ := stands_split h5
    have h8 := stands_plain h6 (fun hm => absurd (hord _ hm) (by decide)) (fun hm => absurd (hord _ hm) (by decide))
    have hv : ∀ c v', v = c :: v' → ¬ Ordinary c := by
      rintro c v' rfl
      cases h7 with
      | separator hc _ => exact hc
      | char _ h _ => exact absurd rfl h
    have hb' : b = h := by
      rcases List.append_eq_append_iff.1 h8 with ⟨x, h9, h10⟩ | ⟨x, h9, h10⟩
      · cases x with
        | nil => simpa using h9.symm
        | cons c x =>
          rcases hq.rest with h11 | ⟨d, r', h11, hd⟩
          · rw [h11] at h10; cases h10
          · rw [h11] at h10
            cases h10
            exact absurd (hord c (by rw [h9]; simp)) (sep_not_ordinary c hd)
      · cases x with
        | nil => simpa using h9
        | cons c x => exact absurd (hhost c (by rw [h3, h9]; simp)) (hv c _ h10)
    subst hb'
    refine ⟨?_, ?_⟩
    · rw [hpart, h3]
      rcases h4 with rfl | ⟨x, rfl⟩
      · exact .inl rfl
      · exact .inr ⟨x, by simp⟩
    · rw [placed_single hstar (by rw [ht]; simp)]
      have hu : q.url = (q.scheme ++ bs%"://" ++ a) ++ (b ++ q.rest) := by
        unfold Request.url
        rw [h3]
        simp
      have hpos : 0 < b.length := List.length_pos_iff.2 hh
      rw [ht, hu]
      refine ⟨?_, ?_, (q.scheme ++ bs%"://" ++ a).length, ?_, ?_⟩
      · intro h
        have := congrArg List.length h
        simp at this
        exact hh this
      · simp only [List.length_append, List.length_cons, List.length_nil]; omega
      · simp only [List.length_append, List.length_cons, List.length_nil]; omega
      · rw [List.drop_left]
        exact partAt_caret hq.rest

/-- Only `^` stands for nothing. -/
theorem stands_nothing {p w : Bytes} (hs : ch%'*' ∉ p) (h : Stands p [] w) : w = [] ∧ ∀ c ∈ p, c = ch%'^' := by
  generalize hu : ([] : Bytes) = u at h
  induction h with
  | nil => exact ⟨rfl, by simp⟩
  | star _ _ => simp at hs
  | separator _ _ _ => cases hu
  | last _ ih =>
    simp only [List.mem_cons, not_or] at hs
    obtain ⟨h1, h2⟩ := ih hs.2 rfl
    refine ⟨h1, fun c hc => ?_⟩
    rcases List.mem_cons.1 hc with rfl | hc
    · rfl
    · exact h2 c hc
  | char _ _ _ _ => cases hu

theorem carets_suffix {p : Bytes} (h : ∀ c ∈ p, c = ch%'^') (hne : p ≠ []) : bs%"^" <:+ p := by
  have h1 := h _ (List.getLast_mem hne)
  refine ⟨p.dropLast, ?_⟩
  rw [← h1, List.dropLast_concat_getLast]

/-- what a part that does not end in `^` stands for, it is compared with successfully -/
theorem regular_part {p v w : Bytes} {K : Prop} (h : Stands p v w) (hs : ch%'*' ∉ p) (hc : ¬ bs%"^" <:+ p) (hK : ch%'^' ∈ p → K)
    (hv : K → ∀ c ∈ v, Ordinary c ∨ IsSep c) :
    PartAt p v ∧ w = v.drop p.length ∧ p.length ≤ v.length := by
  induction h with
  | nil => exact ⟨trivial, rfl, Nat.zero_le _⟩
  | star _ _ => simp at hs
  | separator ho _ ih =>
    simp only [List.mem_cons, not_or] at hs
    obtain ⟨h1, h2, h3⟩ := ih hs.2 (fun h => hc (h.trans (List.suffix_cons _ _))) (fun h => hK (List.mem_cons_of_mem _ h))
      (fun k c hc => hv k c (List.mem_cons_of_mem _ hc))
    exact ⟨⟨.inr ⟨rfl, (hv (hK List.mem_cons_self) _ List.mem_cons_self).resolve_left ho⟩, h1⟩, h2, by simpa using h3⟩
  | last h _ =>
    simp only [List.mem_cons, not_or] at hs
    refine absurd (carets_suffix (fun c hc => ?_) (by simp)) hc
    rcases List.mem_cons.1 hc with rfl | hc
    · rfl
    · exact (stands_nothing hs.2 h).2 c hc
  | char _ _ _ ih =>
    simp only [List.mem_cons, not_or] at hs
    obtain ⟨h1, h2, h3⟩ := ih hs.2 (fun h => hc (h.trans (List.suffix_cons _ _))) (fun h => hK (List.mem_cons_of_mem _ h))
      (fun k c hc => hv k c (List.mem_cons_of_mem _ hc))
    exact ⟨⟨.inl rfl, h1⟩, h2, by simpa using h3⟩

theorem stands_star {p u w : Bytes} (h : Stands (ch%'*' :: p) u w) : ∃ x v, u = x ++ v ∧ Stands p v w := by
  generalize hq : ch%'*' :: p = q at h
  cases h with
  | nil => cases hq
  | star h => cases hq; exact ⟨_, _, rfl, h⟩
  | separator _ _ => cases hq
  | last _ => cases hq
  | char h _ _ => cases hq; exact absurd rfl h

/-- The same for parts which may end in one `^`. -/
theorem regular_first {p v w : Bytes} {K : Prop} (h : Stands p v w) (hs : ch%'*' ∉ p) (hc : ¬ bs%"^^" <:+ p) (hne : p ≠ bs%"^")
    (hK : ch%'^' ∈ p → K) (hv : K → ∀ c ∈ v, Ordinary c ∨ IsSep c) : PartAt p v ∧ w = v.drop p.length ∧ (p ≠ [] → v ≠ []) ∧
      (p.length ≤ v.length ∨ ∃ s, p = s ++ bs%"^" ∧ Stands s v []) := by
  by_cases he : bs%"^" <:+ p
  · obtain ⟨p', rfl⟩ := he
    have hs' : ch%'*' ∉ p' := fun hm => hs (List.mem_append_left _ hm)
    have hc' : ¬ bs%"^" <:+ p' := by
      rintro ⟨p'', rfl⟩
      exact hc ⟨p'', by simp⟩
    obtain ⟨v1, h1, h2⟩ := stands_split h
    obtain ⟨h3, h4, h5⟩ := regular_part h1 hs' hc' (fun h => hK (List.mem_append_left _ h)) hv
    have hpos : 0 < p'.length := by
      cases p' with
      | nil => exact absurd rfl hne
      | cons => simp
    have hvne : v ≠ [] := by
      rintro rfl
      simp at h5
      rw [h5] at hpos
      simp at hpos
    have e : v = v.take p'.length ++ v1 := by rw [h4, List.take_append_drop]
    have hsep : (v1 = [] ∧ w = []) ∨ ∃ c, v1 = c :: w ∧ IsSep c := by
      generalize hq : bs%"^" = q at h2
      cases h2 with
      | nil => cases hq
      | star _ => cases hq
      | separator ho h2 =>
        cases hq
        cases h2
        exact .inr ⟨_, rfl, (hv (hK (List.mem_append_right _ (by simp))) _ (by rw [e]; simp)).resolve_left ho⟩
      | last h2 =>
        cases hq
        cases h2
        exact .inl ⟨rfl, rfl⟩
      | char _ h _ => cases hq; exact absurd rfl h
    have hat : ∀ (p' v : Bytes), PartAt p' v → p'.length ≤ v.length → (v.drop p'.length = [] ∨ ∃ c r, v.drop p'.length = c :: r ∧ IsSep c) →
        PartAt (p' ++ bs%"^") v := by
      intro p'
      induction p' with
      | nil =>
        intro v _ _ h
        rw [List.length_nil, List.drop_zero] at h
        simpa using partAt_caret (h := []) h
      | cons c p' ih =>
        intro v h1 h2 h3
        cases v with
        | nil => simp at h2
        | cons d v => exact ⟨h1.1, ih v h1.2 (by simpa using h2) (by simpa using h3)⟩
    refine ⟨hat p' v h3 h5 ?_, ?_, fun _ => hvne, ?_⟩
    · rw [← h4]
      rcases hsep with ⟨rfl, -⟩ | ⟨c, rfl, hc⟩
      · exact .inl rfl
      · exact .inr ⟨c, w, rfl, hc⟩
    · rw [List.length_append, ← List.drop_drop, ← h4]
      rcases hsep with ⟨rfl, rfl⟩ | ⟨c, rfl, -⟩ <;> rfl
    · rcases hsep with ⟨rfl, -⟩ | ⟨c, rfl, -⟩
      · exact .inr ⟨p', rfl, h1⟩
      · refine .inl ?_
        have := congrArg List.length h4
        simp only [List.length_cons, List.length_drop] at this
        simp only [List.length_append, List.length_cons, List.length_nil]
        omega
  · obtain ⟨h1, h2, h3⟩ := regular_part h hs he hK hv
    refine ⟨h1, h2, fun hne => ?_, .inl h3⟩
    rintro rfl
    exact hne (List.length_eq_zero_iff.1 (by simpa using h3))

/-- The parts of a text are found behind a place where they stand for what follows, unless the first would have to be compared with the end of the
address at once. -/
theorem regular_parts {ps : List Bytes} (hne : ps ≠ []) (hp : ∀ p ∈ ps, ch%'*' ∉ p ∧ p ≠ bs%"^" ∧ ¬ bs%"^^" <:+ p) (hd : ∀ p ∈ ps.dropLast, p ≠ [])
    {u v w : Bytes} (hu : v <:+ u)
    (ht : ∀ first second, [first, second ++ bs%"^"] <:+: ps → first ≠ [] → ∀ v, v <:+ u → ¬ Stands (first ++ second) v [])
    {K : Prop} (h : Stands (joinStars ps) v w) (hK : ∀ p ∈ ps, ch%'^' ∈ p → K) (hv : K → ∀ c ∈ v, Ordinary c ∨ IsSep c) (x : Bytes)
    (hx : (∀ s rest, ps = (s ++ bs%"^") :: rest → Stands s v [] → (s ++ bs%"^").length ≤ x.length + v.length)) : PlacedParts ps (x ++ v) := by
  induction ps generalizing v x with
  | nil => exact absurd rfl hne
  | cons p ps ih =>
    obtain ⟨hs, hcaret, hc⟩ := hp p List.mem_cons_self
    cases ps with
    | nil =>
      by_cases hnil : p = []
      · exact .inl ⟨hnil, rfl⟩
      · obtain ⟨h1, -, h3, h4⟩ := regular_first (show Stands p v w from h) hs hc hcaret (hK p List.mem_cons_self) hv
        have hpos := List.length_pos_iff.2 (h3 hnil)
        have hlen : p.length ≤ x.length + v.length := by
          rcases h4 with h4 | ⟨s, rfl, h4⟩
          · omega
          · exact hx s [] rfl h4
        exact .inr ⟨hcaret, by simp only [List.length_append]; omega, x.length, by simp only [List.length_append]; omega, by
          rw [List.drop_left]; exact h1, trivial⟩
    | cons p' ps =>
      obtain ⟨v1, h1, h2⟩ := stands_split (p := p) (p' := ch%'*' :: joinStars (p' :: ps)) h
      obtain ⟨y, v2, rfl, h3⟩ := stands_star h2
      obtain ⟨h4, h5, h6, h7⟩ := regular_first h1 hs hc hcaret (hK p List.mem_cons_self) hv
      have hnil := hd p (by simp)
      have hpos := List.length_pos_iff.2 (h6 hnil)
      have hlen : p.length ≤ x.length + v.length := by
        rcases h7 with h7 | ⟨s, rfl, h7⟩
        · omega
        · exact hx s _ rfl h7
      refine .inr ⟨hcaret, by simp only [List.length_append]; omega, x.length, by simp only [List.length_append]; omega, by
        rw [List.drop_left]; exact h4, ?_⟩
      rw [← List.drop_drop, List.drop_left, ← h5]
      have hu2 : v2 <:+ u := ((List.suffix_append y v2).trans (h5 ▸ List.drop_suffix _ _)).trans hu
      refine ih (by simp) (fun p hp' => hp p (List.mem_cons_of_mem _ hp')) (fun q hq => hd q (by simp [List.dropLast_cons_cons, hq])) hu2
        (fun a b hab => ht a b (hab.trans (List.suffix_cons _ _).isInfix)) h3 (fun p hp' => hK p (List.mem_cons_of_mem _ hp')) (fun k c hc' => by
        have : c ∈ v.drop p.length := by rw [← h5]; exact List.mem_append_right _ hc'
        exact hv k c (List.drop_subset _ _ this)) y fun s rest e hst => ?_
      injection e with e1 e2
      obtain ⟨hs2, -, hc2⟩ := hp p' (by simp)
      rw [e1] at hs2 hc2
      have hc3 : ¬ bs%"^" <:+ s := by
        rintro ⟨s', rfl⟩
        exact hc2 ⟨s', by simp⟩
      have h8 := (regular_part hst (fun hm => hs2 (List.mem_append_left _ hm)) hc3 (K := K)
        (fun hm => hK p' (by simp) (by rw [e1]; exact List.mem_append_left _ hm)) (fun k c hc' => by
        have : c ∈ v.drop p.length := by rw [← h5]; exact List.mem_append_right _ hc'
        exact hv k c (List.drop_subset _ _ this))).2.2
      cases y with
      | nil => exact absurd (stands_append h1 hst) (ht p s ⟨[], ps, by simp [e1]⟩ hnil v hu)
      | cons => simp only [List.length_append, List.length_cons, List.length_nil]; omega

theorem mem_joinStars {ps : List Bytes} {p : Bytes} {c : Byte} (hp : p ∈ ps) (hc : c ∈ p) : c ∈ joinStars ps := by
  induction ps with
  | nil => cases hp
  | cons q ps ih =>
    cases ps with
    | nil => rw [List.mem_singleton.1 hp] at hc; exact hc
    | cons q' ps =>
      show c ∈ q ++ ch%'*' :: joinStars (q' :: ps)
      rcases List.mem_cons.1 hp with rfl | hp
      · exact List.mem_append_left _ hc
      · exact List.mem_append_right _ (List.mem_cons_of_mem _ (ih hp))

/-- Where a regular text stands for a part of a regular address, it is found. -/
theorem regular_placed {t u : Bytes} (ht : RegularText t) (hurl : 0 < u.length) (hreg1 : t.length ≤ u.length)
    (hreg2 : ch%'^' ∈ t → ∀ c ∈ u, Ordinary c ∨ IsSep c)
    (hreg3 : ∀ first second, [first, second ++ bs%"^"] <:+: splitOn ch%'*' t → first ≠ [] → ∀ v, v <:+ u → ¬ Stands (first ++ second) v [])
    {a v w : Bytes} (h5 : u = a ++ v) (h6 : Stands t v w) : Placed t u := by
  obtain ⟨h1, h2⟩ := ht
  obtain ⟨hj, hstars, hne⟩ := joinStars_splitOn t
  have hv : ch%'^' ∈ t → ∀ c ∈ v, Ordinary c ∨ IsSep c := fun k c hc => hreg2 k c (by rw [h5]; exact List.mem_append_right _ hc)
  have hK : ∀ p ∈ splitOn ch%'*' t, ch%'^' ∈ p → ch%'^' ∈ t := fun p hp hm => by
    rw [← hj]
    exact mem_joinStars hp hm
  have hp : ∀ p ∈ splitOn ch%'*' t, ch%'*' ∉ p ∧ p ≠ bs%"^" ∧ ¬ bs%"^^" <:+ p := fun p hp => ⟨hstars p hp, h1 p hp⟩
  rw [← hj] at h6 hreg1
  unfold Placed
  generalize splitOn ch%'*' t = ps at *
  cases ps with
  | nil => exact absurd rfl hne
  | cons first others =>
    have hu : v <:+ u := ⟨a, h5.symm⟩
    have hsum : u.length = a.length + v.length := by rw [h5, List.length_append]
    by_cases hnil : first = []
    · subst hnil
      cases others with
      | nil => exact .inl ⟨rfl, rfl⟩
      | cons p ps =>
        obtain ⟨y, v2, rfl, h9⟩ := stands_star (p := joinStars (p :: ps)) h6
        refine .inr ⟨by decide, by simp, 0, hurl, trivial, ?_⟩
        have hlen : p.length ≤ u.length := by
          refine Nat.le_trans ?_ hreg1
          cases ps <;> simp [joinStars] <;> omega
        have := regular_parts (ps := p :: ps) (by simp) (fun q hq => hp q (List.mem_cons_of_mem _ hq)) h2 (u := u)
          ((List.suffix_append y v2).trans hu) (fun f s hfs => hreg3 f s (hfs.trans (List.suffix_cons _ _).isInfix)) h9
          (fun q hq => hK q (List.mem_cons_of_mem _ hq)) (fun k c hc => hv k c (List.mem_append_right _ hc)) (a ++ y) (fun s rest e _ => by
            injection e with e1 _
            rw [← e1, List.length_append]
            rw [List.length_append] at hsum
            omega)
        simpa [h5] using this
    · rw [h5]
      refine regular_parts (by simp) hp (fun q hq => ?_) hu hreg3 h6 hK hv a (fun s rest e _ => ?_)
      · cases others with
        | nil => cases hq
        | cons p ps =>
          rw [List.dropLast_cons_cons] at hq
          rcases List.mem_cons.1 hq with rfl | hq
          · exact hnil
          · exact h2 q hq
      · injection e with e1 _
        rw [← e1, ← hsum]
        refine Nat.le_trans ?_ hreg1
        cases others <;> simp [joinStars]

theorem url_pos (q : Request) : 0 < q.url.length := by
  unfold Request.url
  simp only [List.length_append, List.length_cons, List.length_nil]
  omega

/-- Regular rules are compared successfully with every regular address they are meant for. -/
theorem regular_meant {r : RuleText} {q : Request} (hq : q.Web) (hr : r.Regular) (hreg : q.Regular r) : r.AddressFits q ↔ r.AddressMeant q := by
  obtain ⟨ho, ha, hb, ht⟩ := hr
  refine ⟨fits_meant hq ho (.inl (by rw [ha]; decide)), fun hm => ?_⟩
  unfold RuleText.AddressMeant at hm
  unfold RuleText.AddressFits
  rw [ha] at hm
  simp only [ha, hb]
  obtain ⟨a, v, w, h5, h6, -⟩ := hm
  exact regular_placed ht (url_pos q) hreg.1 hreg.2.1 hreg.2.2 h5 h6

/-- A host that stands for the beginning of an address behind some names of its host stands for all the others. -/
theorem host_ends {h b rest v : Bytes} (hord : ∀ x ∈ h, Ordinary x) (hhost : ∀ x ∈ b, Ordinary x) (hrest : rest = [] ∨ ∃ c r, rest = c :: r ∧ IsSep c)
    (hv : v = [] ∨ ∃ c r, v = c :: r ∧ ¬ Ordinary c) (h6 : b ++ rest = h ++ v) : b = h := by
  rcases List.append_eq_append_iff.1 h6 with ⟨x, h9, h10⟩ | ⟨x, h9, h10⟩
  · cases x with
    | nil => simpa using h9.symm
    | cons d x =>
      rcases hrest with h11 | ⟨e, r', h11, hd⟩
      · rw [h11] at h10; cases h10
      · rw [h11] at h10
        cases h10
        exact absurd (hord d (by rw [h9]; simp)) (sep_not_ordinary d hd)
  · cases x with
    | nil => simpa using h9
    | cons d x =>
      rcases hv with rfl | ⟨c, r', rfl, hc⟩
      · cases h10
      · rw [List.cons_append] at h10
        injection h10 with h11 h12
        exact absurd (hhost d (by rw [h9]; simp)) (h11 ▸ hc)

/-- Where a host and a separator stand for something, it is the host and something other than an ordinary character. -/
theorem stands_host {h more v w : Bytes} {c : Byte} (hord : ∀ x ∈ h, Ordinary x) (hc : IsSep c) (hs : Stands (h ++ c :: more) v w) :
    ∃ v', v = h ++ v' ∧ (v' = [] ∨ ∃ c r, v' = c :: r ∧ ¬ Ordinary c) := by
  obtain ⟨v', h1, h2⟩ := stands_split hs
  refine ⟨v', stands_plain h1 (fun hm => ?_) (fun hm => ?_), ?_⟩
  · exact absurd (hord _ hm) (by decide)
  · exact absurd (hord _ hm) (by decide)
  · cases h2 with
    | star => exact absurd hc (by decide)
    | separator hn => exact .inr ⟨_, _, rfl, hn⟩
    | last => exact .inl rfl
    | char => exact .inr ⟨_, _, rfl, sep_not_ordinary _ hc⟩

theorem hostFirst_part {r : RuleText} {h more : Bytes} {c : Byte} (ho : r.odd = none) (ht : r.text = h ++ c :: more) (hc : IsSep c)
    (hord : ∀ x ∈ h, Ordinary x) : r.hostPart = h := by
  have hsep : ∀ c ∈ h, ¬ IsSep c := fun c hc hs => sep_not_ordinary c hs (hord c hc)
  unfold RuleText.hostPart
  rw [ho, ht]
  simp only
  rw [List.takeWhile_append_of_pos (by simpa using hsep)]
  simp [hc]

/-- Regular rules with two bars are compared successfully with every regular address they are meant for. -/
theorem hostFirst_fits {r : RuleText} {q : Request} (hq : q.Web) (hr : r.HostFirst) (ht : RegularText r.text) (hreg : q.Regular r)
    (hhost : ∀ c ∈ q.host, Ordinary c) (hm : r.AddressMeant q) : r.AddressFits q := by
  obtain ⟨ho, ha, hb, h, c, more, hdot, htext, hc, hord⟩ := hr
  unfold RuleText.AddressMeant at hm
  unfold RuleText.AddressFits
  rw [ha] at hm
  simp only [ha, hb]
  obtain ⟨a, b, w, h3, h4, h5, -⟩ := hm
  obtain ⟨v', h6, h7⟩ := stands_host hord hc (htext ▸ h5)
  have : b = h := host_ends hord (fun x hx => hhost x (by rw [h3]; exact List.mem_append_right _ hx)) hq.rest h7 h6
  subst this
  refine ⟨?_, regular_placed ht (url_pos q) hreg.1 hreg.2.1 hreg.2.2 (a := q.scheme ++ bs%"://" ++ a) (v := b ++ q.rest) ?_ h5⟩
  · rw [hostFirst_part ho htext hc hord, h3]
    rcases h4 with rfl | ⟨x, rfl⟩
    · exact .inl rfl
    · exact .inr ⟨x, by simp⟩
  · unfold Request.url
    rw [h3]
    simp

/-- Rules with two bars are meant for the addresses with which they are compared successfully, if the host does not occur elsewhere in these. -/
theorem hostFirst_meant {r : RuleText} {q : Request} (hq : q.Web) (hr : r.HostFirst) (hun : q.Unquoted r) (hhost : ∀ c ∈ q.host, Ordinary c)
    (hf : r.AddressFits q) : r.AddressMeant q := by
  obtain ⟨ho, ha, hb, h, c, more, hdot, htext, hc, hord⟩ := hr
  have hpart := hostFirst_part ho htext hc hord
  unfold RuleText.AddressFits at hf
  simp only [ha, hb] at hf
  obtain ⟨hsite, hplaced⟩ := hf
  rw [hpart] at hsite
  unfold Request.Unquoted at hun
  rw [hpart] at hun
  obtain ⟨a, v, w, h1, h2⟩ := stands_placed hplaced
  obtain ⟨v', h3, h4⟩ := stands_host hord hc (htext ▸ h2)
  unfold RuleText.AddressMeant
  rw [ha]
  have h5 : (q.scheme ++ bs%"://") ++ (q.host ++ q.rest) = a ++ v := by rw [← h1]; unfold Request.url; simp
  have h5' : (∃ x, a = (q.scheme ++ bs%"://") ++ x ∧ q.host ++ q.rest = x ++ v) ∨
      ∃ x, x ≠ [] ∧ q.scheme ++ bs%"://" = a ++ x ∧ v = x ++ (q.host ++ q.rest) := by
    rcases List.append_eq_append_iff.1 h5 with ⟨x, h6, h7⟩ | ⟨x, h6, h7⟩
    · exact .inl ⟨x, h6, h7⟩
    · by_cases hx : x = []
      · subst hx
        exact .inl ⟨[], by simpa using h6.symm, by simpa using h7.symm⟩
      · exact .inr ⟨x, hx, h6, h7⟩
  rcases h5' with ⟨x, h6, h7⟩ | ⟨x, hx, h6, h7⟩
  · rcases List.append_eq_append_iff.1 h7 with ⟨y, h8, h9⟩ | ⟨y, h8, h9⟩
    · rw [h3] at h9
      exact absurd (h9.trans (List.append_assoc y h v').symm) (hun y v')
    · have hy : y = h := host_ends hord (fun z hz => hhost z (by rw [h8]; exact List.mem_append_right _ hz)) hq.rest h4 (h9.symm.trans h3)
      refine ⟨x, y, w, h8, ?_, h9 ▸ h2, fun h => absurd h (by rw [hb]; simp)⟩
      rw [h8, hy] at hsite
      rcases hsite with h10 | ⟨sub, h10⟩
      · exact .inl (List.append_left_eq_self.1 h10)
      · refine .inr ⟨sub, ?_⟩
        have : x ++ h = (sub ++ bs%".") ++ h := by rw [h10]; simp
        exact List.append_cancel_right this
  · exfalso
    rw [h3] at h7
    rcases List.append_eq_append_iff.1 h7 with ⟨y, h8, -⟩ | ⟨y, h8, -⟩
    · have h9 : ch%'.' ∈ q.scheme ++ bs%"://" := by rw [h6, h8]; simp [hdot]
      have h10 : ch%'.' ∈ q.scheme.map lower := by
        rcases List.mem_append.1 h9 with h | h
        · exact List.mem_map.2 ⟨_, h, by decide⟩
        · exact absurd h (by decide)
      have := hq.scheme
      simp only [List.mem_cons, List.not_mem_nil, or_false] at this
      rcases this with h | h | h | h <;> rw [h] at h10 <;> exact absurd h10 (by decide)
    · have h9 : (a ++ x).getLast? = some ch%'/' := by rw [← h6]; simp
      rw [List.getLast?_append, List.getLast?_eq_some_getLast hx, Option.some_or, ← List.getLast?_eq_some_getLast hx] at h9
      have h10 : ch%'/' ∈ h := by rw [h8]; exact List.mem_append_left _ (List.mem_of_getLast? h9)
      exact absurd (hord _ h10) (by decide)

/-- **C91**, as far as it holds: nothing is blocked unless one of the rules is meant for it, if the blocking rules with two bars consist of a
host, or the host with which they begin occurs nowhere behind that of the address. -/
theorem C91_no_more_partial {E : Env} {A : Bytes} {rs : List RuleText} (hA : Lists E A rs) {q : Request}
    (hr : ∀ r ∈ rs, r.exception = false → r.odd = none ∧ (r.anchor ≠ .host ∨ r.HostOnly ∨ (r.HostFirst ∧ q.Unquoted r)))
    (preserve : Bool) (tags : List Bytes) (hq : Askable E rs q) (hhost : ∀ c ∈ q.host, Ordinary c) (h : Answers E A preserve tags q true) : ∃ r ∈ rs, r.exception = false ∧ r.Meant tags q := by
  obtain ⟨b, h1, h2⟩ := answers_iff hA preserve tags hq
  obtain rfl := answers_unique h h1
  obtain ⟨⟨r, hm, he, -, ha⟩, -⟩ := h2.1 rfl
  refine ⟨r, hm, he, ha.1, ha.2.1, ha.2.2.1, ha.2.2.2.1, ?_⟩
  rcases (hr r hm he).2 with h | h | h
  · exact fits_meant hq.web (hr r hm he).1 (.inl h) ha.2.2.2.2
  · exact fits_meant hq.web (hr r hm he).1 (.inr h) ha.2.2.2.2
  · exact hostFirst_meant hq.web h.1 h.2 hhost ha.2.2.2.2

/-- **C91**, as far as it holds: if all rules of a list are simple, or regular like the request, or have two bars, a host which does not occur
elsewhere in the address, and a regular text like the request, and no known defect is to do with them, a request is blocked exactly if a rule is
meant for it and no exception is. -/
theorem C91_exact_partial {E : Env} {A : Bytes} {rs : List RuleText} (hA : Lists E A rs) {q : Request}
    (hr : ∀ r ∈ rs, (r.Simple ∨ (r.Regular ∧ q.Regular r) ∨ (r.HostFirst ∧ RegularText r.text ∧ q.Regular r ∧ q.Unquoted r)) ∧ Reliable E.bad rs r)
    (preserve : Bool) (tags : List Bytes) (hq : Askable E rs q) (hhost : ∀ c ∈ q.host, Ordinary c) :
    ∃ b, Answers E A preserve tags q b ∧
      (b = true ↔ (∃ r ∈ rs, r.exception = false ∧ r.Meant tags q) ∧ ¬ ∃ r ∈ rs, r.exception = true ∧ r.Meant tags q) := by
  obtain ⟨b, h1, h2⟩ := answers_iff hA preserve tags hq
  refine ⟨b, h1, ?_⟩
  have fits : ∀ r ∈ rs, (r.AddressFits q ↔ r.AddressMeant q) := fun r hm => by
    rcases (hr r hm).1 with h | h | h
    · exact simple_meant hq.web h hhost
    · exact regular_meant hq.web h.1 h.2
    · exact ⟨hostFirst_meant hq.web h.1 h.2.2.2 hhost, hostFirst_fits hq.web h.1 h.2.1 h.2.2.1 hhost⟩
  have key : ∀ s, (∃ r ∈ rs, r.exception = s ∧ r.Meant tags q) ↔ CountedApplies E rs tags q s := by
    intro s
    constructor
    · rintro ⟨r, hm, he, hmt⟩
      exact ⟨r, hm, he, reliable_counted (hr r hm).2 q, hmt.1, hmt.2.1, hmt.2.2.1, hmt.2.2.2.1,
        (fits r hm).2 hmt.2.2.2.2⟩
    · rintro ⟨r, hm, he, -, ha⟩
      exact ⟨r, hm, he, ha.1, ha.2.1, ha.2.2.1, ha.2.2.2.1, (fits r hm).1 ha.2.2.2.2⟩
  rw [key, key]
  exact h2

/-- Rules with two bars are compared successfully with the addresses they are meant for. -/
theorem hostAndMore_fits {r : RuleText} {q : Request} (hq : q.Web) (hr : r.HostAndMore) (hhost : ∀ c ∈ q.host, Ordinary c) (hm : r.AddressMeant q) :
    r.AddressFits q := by
  obtain ⟨ho, ha, hb, h1, h2, h, c, more, hh, ht, hc, hord⟩ := hr
  have hsep : ∀ c ∈ h, ¬ IsSep c := fun c hc hs => sep_not_ordinary c hs (hord c hc)
  have hpart : r.hostPart = h := by
    unfold RuleText.hostPart
    rw [ho, ht]
    simp only
    rw [List.takeWhile_append_of_pos (by simpa using hsep)]
    simp [hc]
  unfold RuleText.AddressMeant at hm
  unfold RuleText.AddressFits
  rw [ha] at hm
  simp only [ha, hb]
  obtain ⟨a, b, w, h3, h4, h5, -⟩ := hm
  have h6 := stands_plain h5 h1 h2
  rw [ht, List.append_assoc, List.cons_append] at h6
  have hb' : b = h := by
    rcases List.append_eq_append_iff.1 h6 with ⟨x, h9, h10⟩ | ⟨x, h9, h10⟩
    · cases x with
      | nil => simpa using h9.symm
      | cons d x =>
        rcases hq.rest with h11 | ⟨e, r', h11, hd⟩
        · rw [h11] at h10; cases h10
        · rw [h11] at h10
          cases h10
          exact absurd (hord d (by rw [h9]; simp)) (sep_not_ordinary d hd)
    · cases x with
      | nil => simpa using h9
      | cons d x =>
        rw [List.cons_append] at h10
        injection h10 with h11 h12
        exact absurd (hhost d (by rw [h3, h9]; simp)) (sep_not_ordinary d (h11 ▸ hc))
  subst hb'
  have hne : r.text ≠ [] := by rw [ht]; simp
  have hpos : 0 < r.text.length := List.length_pos_iff.2 hne
  have hu : q.url = (q.scheme ++ bs%"://" ++ a) ++ (r.text ++ w) := by
    have : q.url = (q.scheme ++ bs%"://" ++ a) ++ (b ++ q.rest) := by
      unfold Request.url
      rw [h3]
      simp
    rw [this, h6, ht]
    simp
  refine ⟨?_, ?_⟩
  · rw [hpart, h3]
    rcases h4 with rfl | ⟨x, rfl⟩
    · exact .inl rfl
    · exact .inr ⟨x, by simp⟩
  · rw [placed_single h1 hne, hu]
    refine ⟨?_, by simp only [List.length_append]; omega, (q.scheme ++ bs%"://" ++ a).length, ?_, ?_⟩
    · intro h; rw [h] at h2; simp at h2
    · simp only [List.length_append, List.length_cons, List.length_nil] at hpos ⊢; omega
    · rw [List.drop_left]
      exact partAt_self_append _ _

/-- **C91**, as far as it holds: a list without exceptions blocks every request which one of its rules is meant for, if this is simple, regular
like the request, also behind two bars and a host, or made of two bars, a host and more text without special characters, and no known defect is to
do with it. -/
theorem C91_no_less_partial {E : Env} {A : Bytes} {rs : List RuleText} (hA : Lists E A rs) (he : ∀ r ∈ rs, r.exception = false) {q : Request}
    {r : RuleText} (hr : r ∈ rs) (hs : r.Simple ∨ (r.Regular ∧ q.Regular r) ∨ r.HostAndMore ∨ (r.HostFirst ∧ RegularText r.text ∧ q.Regular r))
    (hrel : Reliable E.bad rs r) (preserve : Bool)
    (tags : List Bytes) (hq : Askable E rs q) (hhost : ∀ c ∈ q.host, Ordinary c) (hm : r.Meant tags q) : Answers E A preserve tags q true := by
  obtain ⟨b, h1, h2⟩ := answers_iff hA preserve tags hq
  have hfits : r.AddressFits q := by
    rcases hs with hs | hs | hs | hs
    · exact (simple_meant hq.web hs hhost).2 hm.2.2.2.2
    · exact (regular_meant hq.web hs.1 hs.2).2 hm.2.2.2.2
    · exact hostAndMore_fits hq.web hs hhost hm.2.2.2.2
    · exact hostFirst_fits hq.web hs.1 hs.2.1 hs.2.2 hhost hm.2.2.2.2
  have : b = true := by
    rw [h2]
    refine ⟨⟨r, hr, he r hr, reliable_counted hrel q, hm.1, hm.2.1, hm.2.2.1, hm.2.2.2.1, hfits⟩, ?_⟩
    rintro ⟨x, hx, hxe, -⟩
    rw [he x hx] at hxe
    cases hxe
  exact this ▸ h1

/-! ### counterexamples -/

def exAmpersand : Request := exRequest bs%"b.com" bs%"/?banner&1" (some (bs%"script", FOScript)) none
def exQuoted : Request := exRequest bs%"ads.com" bs%"/?u=ads.com/x" (some (bs%"script", FOScript)) none

theorem exAmpersand_web : exAmpersand.Web :=
  ⟨by decide +kernel, ⟨by decide +kernel, by decide +kernel⟩, .inr ⟨ch%'/', bs%"?banner&1", rfl, by decide +kernel⟩, by decide +kernel, by
    intro t h; cases h; decide +kernel⟩

theorem exQuoted_web : exQuoted.Web :=
  ⟨by decide +kernel, ⟨by decide +kernel, by decide +kernel⟩, .inr ⟨ch%'/', bs%"?u=ads.com/x", rfl, by decide +kernel⟩, by decide +kernel, by
    intro t h; cases h; decide +kernel⟩

/-- rules without options are meant for all requests (but those for main documents) with the right addresses -/
theorem meant_bare {r : RuleText} (ho : r.entries = []) {tags : List Bytes} {q : Request} (ht : ∀ t, q.type = some t → t.1 ≠ bs%"document") :
    r.Meant tags q ↔ r.AddressMeant q := by
  have hs : ∀ n, ¬ r.Says n := by simp [RuleText.Says, ho]
  have hd : ∀ n, ¬ r.Denies n := by simp [RuleText.Denies, ho]
  have h1 : r.types = [] := by simp [RuleText.types, hs]
  have h2 : r.notTypes = [] := by simp [RuleText.notTypes, hd]
  have h3 : ¬ r.TakenForType := by simp [RuleText.TakenForType, hs]
  unfold RuleText.Meant
  refine ⟨fun h => h.2.2.2.2, fun h => ⟨by simp [ho], ?_, fun _ _ => ⟨fun h => absurd h (hs _), fun h => absurd h (hd _),
    fun dl h => by simp [RuleText.value, ho] at h⟩, by simp [RuleText.TagEnabled, RuleText.value, ho], h⟩⟩
  unfold RuleText.TypeAllowed
  cases hty : q.type with
  | none => exact ⟨h1, fun _ => h2, fun _ => h3⟩
  | some t => exact ⟨.inr ⟨h1, h3⟩, by simp [h2], fun h => absurd h (ht t hty)⟩

/-- **C91** fails for `^` before characters such as `&`, which is a separator according to the documentation. -/
theorem C91_separator_counterexample {E : Env} (hroll : ∀ url, E.fp.rolls url) :
    Answers E bs%"banner^" false [] exAmpersand false ∧ RuleText.Meant { text := bs%"banner^" } [] exAmpersand := by
  refine ⟨answers_compared (v := false) (r := { text := bs%"banner^" }) hroll (by decide +kernel) rfl
    (.inl (by decide +kernel)) (by decide +kernel) (by decide +kernel) exAmpersand_web (by decide +kernel), ?_⟩
  rw [meant_bare (by decide +kernel) (by rintro t ⟨⟩; decide)]
  exact ⟨bs%"https://b.com/?", bs%"banner&1", bs%"1", by decide +kernel,
    stands_append (p := bs%"banner") (stands_self bs%"banner" bs%"&1") (.separator (by decide) .nil), nofun⟩

/-- **C91** fails for stars in rules that begin with a bar: they only stand for themselves. -/
theorem C91_anchored_counterexample {E : Env} (hroll : ∀ url, E.fp.rolls url) :
    Answers E bs%"|https://*banner" false [] exBanner false ∧ RuleText.Meant { anchor := .left, text := bs%"https://*banner" } [] exBanner := by
  refine ⟨answers_compared (v := false) (r := { anchor := .left, text := bs%"https://*banner" }) hroll (by decide +kernel) rfl
    (.inl (by decide +kernel)) (by decide +kernel) (by decide +kernel) exBanner_web (by decide +kernel), ?_⟩
  rw [meant_bare (by decide +kernel) (by rintro t ⟨⟩; decide)]
  refine ⟨[], ?_, nofun⟩
  have h1 := stands_append (stands_self bs%"https://" bs%"b.com/banner") (.star (x := bs%"b.com/") (stands_self bs%"banner" []))
  exact (by decide +kernel : exBanner.url = bs%"https://" ++ bs%"b.com/banner") ▸ h1

/-- **C91** fails for a `^` that stands for the end of the address if the part before it follows the one before that immediately: `b.c*om/banner^`
is not applied to `https://b.com/banner`. -/
theorem C91_tight_counterexample {E : Env} (hroll : ∀ url, E.fp.rolls url) :
    Answers E bs%"b.c*om/banner^" false [] exBanner false ∧ RuleText.Meant { text := bs%"b.c*om/banner^" } [] exBanner := by
  refine ⟨answers_compared (v := false) (r := { text := bs%"b.c*om/banner^" }) hroll (by decide +kernel) rfl
    (.inl (by decide +kernel)) (by decide +kernel) (by decide +kernel) exBanner_web (by decide +kernel), ?_⟩
  exact (meant_bare (by decide +kernel) (by rintro t ⟨⟩; decide)).2 ⟨bs%"https://", bs%"b.com/banner", [], by decide +kernel,
      stands_append (stands_self bs%"b.c" bs%"om/banner") (.star (x := [])
        (stands_append (stands_self bs%"om/banner" []) (.last .nil))), nofun⟩

/-- **C91** fails for beginnings of names after two bars: `||ads.co` is not applied to `ads.com`. -/
theorem C91_prefix_counterexample {E : Env} (hroll : ∀ url, E.fp.rolls url) :
    Answers E bs%"||ads.co" false [] exAds false ∧ RuleText.Meant { anchor := .host, text := bs%"ads.co" } [] exAds := by
  refine ⟨answers_compared (v := false) (r := { anchor := .host, text := bs%"ads.co" }) hroll (by decide +kernel) rfl
    (.inr (by decide +kernel)) (by decide +kernel) (by decide +kernel) exAds_web (by decide +kernel), ?_⟩
  rw [meant_bare (by decide +kernel) (by rintro t ⟨⟩; decide)]
  exact ⟨[], bs%"ads.com", bs%"m/", rfl, .inl rfl, stands_self bs%"ads.co" bs%"m/", nofun⟩

/-- **C91** fails for texts after two bars which go beyond the host: they are looked for everywhere in the address. -/
theorem C91_elsewhere_counterexample {E : Env} (hroll : ∀ url, E.fp.rolls url) :
    Answers E bs%"||ads.com/x" false [] exQuoted true ∧ ¬ RuleText.Meant { anchor := .host, text := bs%"ads.com/x" } [] exQuoted := by
  refine ⟨answers_compared (v := true) (r := { anchor := .host, text := bs%"ads.com/x" }) hroll (by decide +kernel) rfl
    (.inl (by decide +kernel)) (by decide +kernel) (by decide +kernel) exQuoted_web (by decide +kernel), ?_⟩
  rw [meant_bare (by decide +kernel) (by rintro t ⟨⟩; decide)]
  rintro ⟨a, b, w, h1, -, h2, -⟩
  have h3 := stands_plain h2 (by decide) (by decide)
  have h4 : a.length ≤ 7 := by
    have := congrArg List.length h1
    simp only [List.length_append] at this
    have h5 : exQuoted.host.length = 7 := by decide +kernel
    omega
  have h5 : b = exQuoted.host.drop a.length := by rw [h1, List.drop_left]
  have key : ∀ n < 8, ¬ bs%"ads.com/x" <+: exQuoted.host.drop n ++ exQuoted.rest := by decide +kernel
  exact key a.length (by omega) (h5 ▸ ⟨w, h3.symm⟩)

/-- no later part ends in `^` -/
theorem no_tight {t u : Bytes} (h : ∀ p ∈ (splitOn ch%'*' t).tail, ¬ bs%"^" <:+ p) :
    ∀ first second, [first, second ++ bs%"^"] <:+: splitOn ch%'*' t → first ≠ [] → ∀ v, v <:+ u → ¬ Stands (first ++ second) v [] := by
  rintro first second ⟨a, b, e⟩
  refine absurd ⟨second, rfl⟩ (h (second ++ bs%"^") ?_)
  rw [← e]
  cases a <;> simp

/-- **C91**, an example: a list of simple rules. -/
example {E : Env} (hroll : ∀ url, E.fp.rolls url) : Answers E bs%"||ads.com^\nbanner|\n@@|https://b.com/ok" false [] exBanner true := by
  let rs : List RuleText := [{ anchor := .host, text := bs%"ads.com^" }, { text := bs%"banner", rightBar := true },
    { exception := true, anchor := .left, text := bs%"https://b.com/ok" }]
  have hp : ∀ r ∈ rs, plainRule r = true := by decide +kernel
  have hs : ∀ r ∈ rs, (r.Simple ∨ (r.Regular ∧ exBanner.Regular r) ∨ (r.HostFirst ∧ RegularText r.text ∧ exBanner.Regular r ∧ exBanner.Unquoted r)) ∧
      Reliable E.bad rs r := by
    intro r hr
    simp only [rs, List.mem_cons, List.not_mem_nil, or_false] at hr
    rcases hr with rfl | rfl | rfl
    · exact ⟨.inl ⟨rfl, .inr ⟨rfl, rfl, bs%"ads.com", by decide, rfl, by decide⟩⟩, fun _ => ⟨by decide +kernel, [], _, rfl, by simp⟩, .inl (by decide +kernel)⟩
    · exact ⟨.inl ⟨rfl, .inl ⟨by decide, by decide, by decide⟩⟩, fun h => absurd h (by decide +kernel), .inl (by decide +kernel)⟩
    · exact ⟨.inl ⟨rfl, .inl ⟨by decide, by decide, by decide⟩⟩, fun h => absurd h (by decide +kernel), .inl (by decide +kernel)⟩
  obtain ⟨b, h1, h2⟩ := C91_exact_partial (E := E) (rs := rs) (lists_rules (plainRules_sound hp) (by simp [rs])) hs false []
    (plainRules_askable hroll hp exBanner_web) (by decide +kernel)
  have : b = true := by
    rw [h2]
    refine ⟨⟨rs[1], by simp [rs], rfl, (meant_bare (by decide +kernel) (by rintro t ⟨⟩; decide)).2 ⟨bs%"https://b.com/", bs%"banner", [],
      by decide +kernel, stands_self bs%"banner" [], fun _ => rfl⟩⟩, ?_⟩
    rintro ⟨r, hr, he, hm⟩
    simp only [rs, List.mem_cons, List.not_mem_nil, or_false] at hr
    rcases hr with rfl | rfl | rfl
    · cases he
    · cases he
    · rw [meant_bare (by decide +kernel) (by rintro t ⟨⟩; decide)] at hm
      obtain ⟨w, h3, -⟩ := hm
      have h4 : bs%"https://b.com/ok" <+: exBanner.url := ⟨w, (stands_plain h3 (by decide) (by decide)).symm⟩
      exact absurd h4 (by decide +kernel)
  exact this ▸ h1

/-- **C91**, an example: a regular rule. -/
example {E : Env} (hroll : ∀ url, E.fp.rolls url) : ∃ b, Answers E bs%"^b.com*anner" false [] exBanner b ∧
    (b = true ↔ RuleText.Meant { text := bs%"^b.com*anner" } [] exBanner) := by
  have hp : ∀ r ∈ [({ text := bs%"^b.com*anner" } : RuleText)], plainRule r = true := by decide +kernel
  obtain ⟨b, h1, h2⟩ := C91_exact_partial (E := E) (q := exBanner) (lists_rules (plainRules_sound hp) (by simp)) (fun r hr => by
    rw [List.mem_singleton.1 hr]
    exact ⟨.inr (.inl ⟨⟨rfl, rfl, rfl, by decide +kernel, by decide +kernel⟩, by decide +kernel, by decide +kernel, no_tight (by decide +kernel)⟩),
      fun h => absurd h (by decide +kernel), .inl (by decide +kernel)⟩) false [] (plainRules_askable hroll hp exBanner_web) (by decide +kernel)
  refine ⟨b, h1, h2.trans ⟨?_, fun h => ⟨⟨_, List.mem_singleton_self _, rfl, h⟩, ?_⟩⟩⟩
  · rintro ⟨⟨r, hr, -, hm⟩, -⟩
    rwa [List.mem_singleton.1 hr] at hm
  · rintro ⟨r, hr, he, -⟩
    rw [List.mem_singleton.1 hr] at he
    cases he

/-- **C91**, an example: a regular rule with a star and a `^` behind it, for the end of the address. -/
example {E : Env} (hroll : ∀ url, E.fp.rolls url) : Answers E bs%"s://b*anner^" false [] exBanner true := by
  have hp : ∀ r ∈ [({ text := bs%"s://b*anner^" } : RuleText)], plainRule r = true := by decide +kernel
  have hsp : splitOn ch%'*' bs%"s://b*anner^" = [bs%"s://b", bs%"anner^"] := by decide +kernel
  refine C91_no_less_partial (lists_rules (plainRules_sound hp) (by simp)) (by simp) (List.mem_singleton_self _)
    (.inr (.inl ⟨⟨rfl, rfl, rfl, by decide +kernel, by decide +kernel⟩, by decide +kernel, by decide +kernel, ?_⟩))
    ⟨fun h => absurd h (by decide +kernel), .inl (by decide +kernel)⟩ false [] (plainRules_askable hroll hp exBanner_web) (by decide +kernel)
    ((meant_bare (by decide +kernel) (by rintro t ⟨⟩; decide)).2 ⟨bs%"http", bs%"s://b.com/banner", [], by decide +kernel,
      stands_append (stands_self bs%"s://b" bs%".com/banner") (.star (x := bs%".com/b")
        (stands_append (stands_self bs%"anner" []) (.last .nil))), nofun⟩)
  intro first second hin _ v hv hst
  have h1 : first = bs%"s://b" ∧ second = bs%"anner" := by
    have e := hin.eq_of_length (by rw [show (RuleText.text { text := bs%"s://b*anner^" }) = bs%"s://b*anner^" from rfl, hsp]; rfl)
    rw [show (RuleText.text { text := bs%"s://b*anner^" }) = bs%"s://b*anner^" from rfl, hsp] at e
    injection e with e1 e2
    injection e2 with e2 _
    exact ⟨e1, List.append_cancel_right (e2 : second ++ bs%"^" = bs%"anner" ++ bs%"^")⟩
  obtain ⟨rfl, rfl⟩ := h1
  have h2 := stands_plain hst (by decide) (by decide)
  rw [h2] at hv
  exact absurd hv (by decide +kernel)

/-- **C91**, an example: a rule with a host and a path. -/
example {E : Env} (hroll : ∀ url, E.fp.rolls url) : Answers E bs%"||com/ban" false [] exBanner true := by
  have hp : ∀ r ∈ [({ anchor := .host, text := bs%"com/ban" } : RuleText)], plainRule r = true := by decide +kernel
  exact C91_no_less_partial (lists_rules (plainRules_sound hp) (by simp)) (by simp) (List.mem_singleton_self _)
    (.inr (.inr (.inl ⟨rfl, rfl, rfl, by decide, by decide, bs%"com", ch%'/', bs%"ban", by decide, rfl, by decide, by decide⟩)))
    ⟨fun h => absurd h (by decide +kernel), .inl (by decide +kernel)⟩ false [] (plainRules_askable hroll hp exBanner_web) (by decide +kernel)
    ((meant_bare (by decide +kernel) (by rintro t ⟨⟩; decide)).2 ⟨bs%"b.", bs%"com", bs%"ner", rfl, .inr ⟨bs%"b", rfl⟩,
      stands_self bs%"com/ban" bs%"ner", nofun⟩)

/-- **C91**, an example: a rule with a host, a path and a star. -/
example {E : Env} (hroll : ∀ url, E.fp.rolls url) : ∃ b, Answers E bs%"||b.com/*anner" false [] exBanner b ∧
    (b = true ↔ RuleText.Meant { anchor := .host, text := bs%"b.com/*anner" } [] exBanner) := by
  have hp : ∀ r ∈ [({ anchor := .host, text := bs%"b.com/*anner" } : RuleText)], plainRule r = true := by decide +kernel
  obtain ⟨b, h1, h2⟩ := C91_exact_partial (E := E) (q := exBanner) (lists_rules (plainRules_sound hp) (by simp)) (fun r hr => by
    rw [List.mem_singleton.1 hr]
    refine ⟨.inr (.inr ⟨⟨rfl, rfl, rfl, bs%"b.com", ch%'/', bs%"*anner", by decide, rfl, by decide, by decide⟩,
      ⟨by decide +kernel, by decide +kernel⟩, ⟨by decide +kernel, by decide +kernel, no_tight (by decide +kernel)⟩, ?_⟩),
      fun h => absurd h (by decide +kernel), .inl (by decide +kernel)⟩
    intro a b h
    have h3 : bs%"b.com" <:+: exBanner.rest := ⟨a, b, h.symm⟩
    exact absurd h3 (by decide +kernel)) false [] (plainRules_askable hroll hp exBanner_web) (by decide +kernel)
  refine ⟨b, h1, h2.trans ⟨?_, fun h => ⟨⟨_, List.mem_singleton_self _, rfl, h⟩, ?_⟩⟩⟩
  · rintro ⟨⟨r, hr, -, hm⟩, -⟩
    rwa [List.mem_singleton.1 hr] at hm
  · rintro ⟨r, hr, he, -⟩
    rw [List.mem_singleton.1 hr] at he
    cases he

/-- **C91**, an example: the request is blocked by `||b.com/ban`, so this is meant for it. -/
example {E : Env} (hroll : ∀ url, E.fp.rolls url) : RuleText.Meant { anchor := .host, text := bs%"b.com/ban" } [] exBanner := by
  have hp : ∀ r ∈ [({ anchor := .host, text := bs%"b.com/ban" } : RuleText)], plainRule r = true := by decide +kernel
  obtain ⟨r, hr, -, h⟩ := C91_no_more_partial (E := E) (q := exBanner) (lists_rules (plainRules_sound hp) (by simp)) (fun r hr _ => by
    rw [List.mem_singleton.1 hr]
    refine ⟨rfl, .inr (.inr ⟨⟨rfl, rfl, rfl, bs%"b.com", ch%'/', bs%"ban", by decide, rfl, by decide, by decide⟩, fun a b h => ?_⟩)⟩
    have h3 : bs%"b.com" <:+: exBanner.rest := ⟨a, b, h.symm⟩
    exact absurd h3 (by decide +kernel)) false [] (plainRules_askable hroll hp exBanner_web) (by decide +kernel)
    (answers_compared (v := true) (r := { anchor := .host, text := bs%"b.com/ban" }) hroll (by decide +kernel) rfl
      (.inl (by decide +kernel)) (by decide +kernel) (by decide +kernel) exBanner_web (by decide +kernel))
  rwa [List.mem_singleton.1 hr] at h

end AdBlock
