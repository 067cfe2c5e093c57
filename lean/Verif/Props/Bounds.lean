import Verif.SpecBounds
import Verif.Props.Pattern
/-
C47: exactly which comparisons read out of bounds.
-/
namespace AdBlock
open Spec

theorem goesPast_cons {fc c : Byte} {fs u : Bytes} (hm : fc = c ∨ (fc = ch%'^' ∧ IsSep c)) :
    GoesPast (fc :: fs) (c :: u) ↔ GoesPast fs u := by
  constructor
  · rintro ⟨a, b, h1, h2, h3, h4⟩
    cases a with
    | nil => cases h3
    | cons x a =>
      cases h1
      exact ⟨a, b, rfl, h2, by simpa using h3, h4.2⟩
  · rintro ⟨a, b, rfl, h2, h3, h4⟩
    exact ⟨fc :: a, b, rfl, h2, by simp [h3], hm, h4⟩

theorem givesUp_cons {fc c : Byte} {fs u : Bytes} (hm : fc = c ∨ (fc = ch%'^' ∧ IsSep c)) :
    GivesUp (fc :: fs) (c :: u) ↔ GivesUp fs u := by
  constructor
  · rintro ⟨a, x, b, h1, h2, h3, h4⟩
    cases a with
    | nil => cases h3
    | cons y a =>
      cases h1
      exact ⟨a, x, b, rfl, h2, by simpa using h3, h4.2⟩
  · rintro ⟨a, x, b, rfl, h2, h3, h4⟩
    exact ⟨fc :: a, x, b, rfl, h2, by simp [h3], hm, h4⟩

/-- what the inner loop does -/
theorem matchAt_exact (p u : Bytes) (hu : 0 ∉ u) (hp : 0 ∉ p) :
    (GoesPast p u → matchAt (cstr u) p = .ub .oobRead) ∧ (GivesUp p u → matchAt (cstr u) p = .ok .abort) ∧
    (¬ GoesPast p u → ∃ r, matchAt (cstr u) p = .ok r ∧ (r = .full ↔ PartAt p u) ∧ (r = .abort ↔ GivesUp p u)) := by
  induction p generalizing u with
  | nil =>
    have h1 : ¬ GoesPast [] u := by rintro ⟨a, b, h, -⟩; simp at h
    have h2 : ¬ GivesUp [] u := by rintro ⟨a, x, b, h, -⟩; simp at h
    exact ⟨fun h => absurd h h1, fun h => absurd h h2, fun _ => ⟨.full, rfl, by simp [PartAt], by simp [h2]⟩⟩
  | cons fc fs ih =>
    have hfc : fc ≠ 0 := fun e => hp (by simp [e])
    have hfs := not_mem_tail hp
    cases u with
    | nil =>
      have up : GivesUp (fc :: fs) [] ↔ fc ≠ ch%'^' := by
        constructor
        · rintro ⟨a, x, b, h1, h2, h3, h4⟩
          cases List.eq_nil_of_length_eq_zero h3
          cases h1
          exact h2
        · exact fun h => ⟨[], fc, fs, rfl, h, rfl, trivial⟩
      have past : GoesPast (fc :: fs) [] ↔ fc = ch%'^' ∧ fs ≠ [] := by
        constructor
        · rintro ⟨a, b, h1, h2, h3, h4⟩
          cases List.eq_nil_of_length_eq_zero h3
          cases h1
          exact ⟨rfl, h2⟩
        · rintro ⟨rfl, h⟩
          exact ⟨[], fs, rfl, h, rfl, trivial⟩
      rw [up, past]
      simp only [matchAt, cstr, List.nil_append, rd_cons_zero, Res.bind_ok, bne_iff_ne, ne_eq, hfc,
        not_false_eq_true, ↓reduceIte, isSeparatorChar_zero, Bool.false_or, beq_self_eq_true,
        Bool.and_true, beq_iff_eq]
      by_cases h : fc = ch%'^'
      · simp only [h, ↓reduceIte, List.drop_succ_cons, List.drop_zero]
        cases fs with
        | nil => simp [matchAt, PartAt]
        | cons g gs => simp [matchAt, rd_nil, Res.bind_ub]
      · simp [h, PartAt]
    | cons c u =>
      have hc : c ≠ 0 := fun e => hu (by simp [e])
      have hu' := not_mem_tail hu
      have ih' := ih u hu' hfs
      have cont : (fc = c ∨ (fc = ch%'^' ∧ IsSep c)) → matchAt (cstr (c :: u)) (fc :: fs) = matchAt (cstr u) fs →
          (GoesPast (fc :: fs) (c :: u) → matchAt (cstr (c :: u)) (fc :: fs) = .ub .oobRead) ∧
          (GivesUp (fc :: fs) (c :: u) → matchAt (cstr (c :: u)) (fc :: fs) = .ok .abort) ∧
          (¬ GoesPast (fc :: fs) (c :: u) → ∃ r, matchAt (cstr (c :: u)) (fc :: fs) = .ok r ∧
            (r = .full ↔ PartAt (fc :: fs) (c :: u)) ∧ (r = .abort ↔ GivesUp (fc :: fs) (c :: u))) := by
        intro hm he
        rw [he, goesPast_cons hm, givesUp_cons hm]
        simp only [PartAt, hm, true_and]
        exact ih'
      by_cases h : fc = c
      · exact cont (.inl h) (by simp [matchAt, cstr_cons, h])
      · by_cases h' : fc = ch%'^' ∧ IsSep c
        · refine cont (.inr h') ?_
          have hs := (isSeparatorChar_iff c).2 h'.2
          have : ¬ ch%'^' = c := by rw [← h'.1]; exact h
          simp [matchAt, cstr_cons, h'.1, hs, this]
        · have h2 : ¬ (fc = ch%'^' ∧ isSeparatorChar c = true) := by rw [isSeparatorChar_iff]; exact h'
          have he : matchAt (cstr (c :: u)) (fc :: fs) = .ok .mismatch := by
            simp [matchAt, cstr_cons, h, hc, h2]
          have no : ∀ a x b, fc :: fs = a ++ x :: b → a.length = (c :: u).length → ¬ PartAt a (c :: u) := by
            intro a x b h1 h3 h4
            cases a with
            | nil => cases h3
            | cons y a =>
              cases h1
              rcases h4.1 with h5 | h5
              · exact h h5
              · exact h' h5
          have n1 : ¬ GoesPast (fc :: fs) (c :: u) := fun ⟨a, b, h1, _, h3, h4⟩ => no _ _ _ h1 h3 h4
          have n2 : ¬ GivesUp (fc :: fs) (c :: u) := fun ⟨a, x, b, h1, _, h3, h4⟩ => no _ _ _ h1 h3 h4
          rw [he]
          refine ⟨fun h => absurd h n1, fun h => absurd h n2, fun _ => ⟨.mismatch, rfl, ?_, by simp [n2]⟩⟩
          simp [PartAt, h, h']

/-- where the part is not found, the search may stop without harm -/
theorem indexLoop_exact (p u : Bytes) (hu : 0 ∉ u) (hp : 0 ∉ p) :
    ((∃ k, k < u.length ∧ GoesPast p (u.drop k) ∧ ∀ j, j < k → ¬ PartAt p (u.drop j) ∧ ¬ GivesUp p (u.drop j)) →
      indexLoop p u.length (cstr u) = .ub .oobRead) ∧
    (¬ (∃ k, k < u.length ∧ GoesPast p (u.drop k) ∧ ∀ j, j < k → ¬ PartAt p (u.drop j) ∧ ¬ GivesUp p (u.drop j)) →
      ∃ o, indexLoop p u.length (cstr u) = .ok o) := by
  induction u with
  | nil => simp [indexLoop]
  | cons c u ih =>
    obtain ⟨m1, m2, m3⟩ := matchAt_exact p (c :: u) hu hp
    obtain ⟨i1, i2⟩ := ih (not_mem_tail hu)
    simp only [List.length_cons, indexLoop]
    by_cases hg : GoesPast p (c :: u)
    · rw [m1 hg]
      refine ⟨fun _ => rfl, fun h => absurd ⟨0, by simp, hg, by simp⟩ h⟩
    · obtain ⟨r, hr, r1, r2⟩ := m3 hg
      rw [hr, Res.bind_ok]
      have shift : (∃ k, k < (c :: u).length ∧ GoesPast p ((c :: u).drop k) ∧
          ∀ j, j < k → ¬ PartAt p ((c :: u).drop j) ∧ ¬ GivesUp p ((c :: u).drop j)) ↔
          (¬ PartAt p (c :: u) ∧ ¬ GivesUp p (c :: u)) ∧
            ∃ k, k < u.length ∧ GoesPast p (u.drop k) ∧ ∀ j, j < k → ¬ PartAt p (u.drop j) ∧ ¬ GivesUp p (u.drop j) := by
        constructor
        · rintro ⟨k, h1, h2, h3⟩
          cases k with
          | zero => exact absurd h2 hg
          | succ k =>
            refine ⟨h3 0 (by omega), k, by simpa using h1, h2, fun j hj => h3 (j + 1) (by omega)⟩
        · rintro ⟨h0, k, h1, h2, h3⟩
          refine ⟨k + 1, by simpa using h1, h2, fun j hj => ?_⟩
          cases j with
          | zero => exact h0
          | succ j => exact h3 j (by omega)
      simp only [List.length_cons] at shift
      rw [shift]
      cases r with
      | full =>
        have := r1.1 rfl
        exact ⟨fun h => absurd this h.1.1, fun _ => ⟨_, rfl⟩⟩
      | abort =>
        have := r2.1 rfl
        exact ⟨fun h => absurd this h.1.2, fun _ => ⟨_, rfl⟩⟩
      | mismatch =>
        have n1 : ¬ PartAt p (c :: u) := by rw [← r1]; simp
        have n2 : ¬ GivesUp p (c :: u) := by rw [← r2]; simp
        rw [cstr_cons, List.drop_succ_cons, List.drop_zero]
        refine ⟨fun h => by rw [i1 h.2]; rfl, fun h => ?_⟩
        obtain ⟨o, ho⟩ := i2 fun hk => h ⟨⟨n1, n2⟩, hk⟩
        exact ⟨o.map (· + 1), by rw [ho]; rfl⟩

theorem indexOfFilter_exact (p u : Bytes) (hu : 0 ∉ u) (hp : 0 ∉ p) :
    (SearchGoesPast p u → indexOfFilter (cstr u) u.length p = .ub .oobRead) ∧
    (¬ SearchGoesPast p u → (∃ k, LookedFor p u ∧ FirstAt p u k ∧ indexOfFilter (cstr u) u.length p = .ok (some k)) ∨
      (∀ k, ¬ (LookedFor p u ∧ FirstAt p u k)) ∧ indexOfFilter (cstr u) u.length p = .ok none) := by
  have spec := indexOfFilter_spec p u hu hp
  have hok : (SearchGoesPast p u → indexOfFilter (cstr u) u.length p = .ub .oobRead) ∧
      (¬ SearchGoesPast p u → ∃ o, indexOfFilter (cstr u) u.length p = .ok o) := by
    obtain ⟨i1, i2⟩ := indexLoop_exact p u hu hp
    unfold indexOfFilter SearchGoesPast LookedFor
    by_cases h1 : p = bs%"^"
    · simp [h1]
    · by_cases h2 : (p.length : Int) > (u.length : Int)
      · rw [if_neg h1, if_pos h2]
        exact ⟨fun h => absurd h.1.2 (by omega), fun _ => ⟨_, rfl⟩⟩
      · rw [if_neg h1, if_neg h2, Int.toNat_natCast]
        exact ⟨fun h => i1 h.2, fun h => i2 fun hk => h ⟨⟨h1, by omega⟩, hk⟩⟩
  refine ⟨hok.1, fun h => ?_⟩
  obtain ⟨o, ho⟩ := hok.2 h
  rw [ho] at spec
  cases o with
  | some k => exact .inl ⟨k, ⟨spec.1, spec.2.1⟩, spec.2.2, ho⟩
  | none => exact .inr ⟨fun k hk => spec ⟨hk.1.1, hk.1.2, k, hk.2.1, hk.2.2.1⟩, ho⟩

theorem firstAt_unique {p u : Bytes} {j k : Nat} (h : FirstAt p u j) (h' : FirstAt p u k) : j = k := by
  rcases Nat.lt_trichotomy j k with hl | hl | hl
  · exact absurd h.2.1 (h'.2.2 j hl)
  · exact hl
  · exact absurd h'.2.1 (h.2.2 k hl)

/-- a search that goes past the end has found nothing before -/
theorem searchGoesPast_not_first {p u : Bytes} (hu : 0 ∉ u) (hp : 0 ∉ p) (h : SearchGoesPast p u) (k : Nat) : ¬ (LookedFor p u ∧ FirstAt p u k) := by
  rintro ⟨-, h1, h2, h3⟩
  obtain ⟨⟨-, hl⟩, j, j1, ⟨a, b, e, hb, h4, h5⟩, j3⟩ := h
  rcases Nat.lt_or_ge k j with hkj | hkj
  · exact (j3 k hkj).1 h2
  · have := partAt_length h2
    have hb' : 0 < b.length := List.length_pos_iff.2 hb
    rw [e] at this
    simp at this h4
    omega

theorem wildLoop_exact (url : Bytes) (hu : 0 ∉ url) (terminated : Bool) (tail : Ptr) (ht : if terminated then ∃ r, tail = 0 :: r else tail = []) :
    ∀ (fuel : Nat) (d : Bytes) (p : Bytes) (ps : List Bytes) (index : Nat),
      d.length < fuel → 0 ∉ d → splitOn ch%'*' d = p :: ps → index ≤ url.length + 1 →
      (PartsGoPast terminated (p :: ps) (url.drop index) →
        wildLoop none (cstr url) url.length fuel (d ++ tail) d.length p.length index = .ub .oobRead) ∧
      (¬ PartsGoPast terminated (p :: ps) (url.drop index) →
        ∃ b, wildLoop none (cstr url) url.length fuel (d ++ tail) d.length p.length index = .ok b) := by
  intro fuel
  induction fuel with
  | zero => intro d p ps index h; omega
  | succ fuel ih =>
    intro d p ps index hf hd hsp hi
    obtain ⟨hsep, hdec⟩ := splitOn_decomp hsp
    have hp0 : 0 ∉ p := by
      rcases hdec with ⟨_, rfl⟩ | ⟨d', rfl, _⟩
      · exact hd
      · intro h; exact hd (by simp [h])
    have htake : (d ++ tail).take p.length = p := by
      rcases hdec with ⟨_, rfl⟩ | ⟨d', rfl, _⟩
      · simp
      · simp
    by_cases hend : p = [] ∧ ps = []
    · have hdn : d = [] := by
        rcases hdec with ⟨_, rfl⟩ | ⟨d', _, _, h⟩
        · exact hend.1
        · exact absurd hend.2 h
      rw [PartsGoPast, if_pos hend]
      obtain ⟨rfl, rfl⟩ := hend
      subst hdn
      cases terminated with
      | true =>
        obtain ⟨r, rfl⟩ := ht
        refine ⟨fun h => by simp at h, fun _ => ⟨true, ?_⟩⟩
        simp [wildLoop]
      | false =>
        cases (show tail = [] from ht)
        exact ⟨fun _ => by simp [wildLoop], fun h => absurd rfl h⟩
    · rw [PartsGoPast, if_neg hend]
      have hent : p.length ≠ 0 ∨ rd (d ++ tail) 0 = .ok ch%'*' := by
        rcases hdec with ⟨h, rfl⟩ | ⟨d', rfl, _⟩
        · left
          intro h0
          exact hend ⟨List.eq_nil_of_length_eq_zero h0, h⟩
        · cases p with
          | nil => right; simp
          | cons a p => left; simp
      rw [wildLoop_step _ _ _ _ _ _ _ _ hent, htake]
      simp only [partPasses, Bool.not_true, Bool.false_eq_true, ↓reduceIte]
      have hudrop : 0 ∉ url.drop index := fun h => hu (List.mem_of_mem_drop h)
      by_cases hlast : index = url.length + 1
      · have e1 : ((url.length : Int) - index) = -1 := by omega
        have e2 : url.drop index = [] := List.drop_eq_nil_of_le (by omega)
        have hnone : indexOfFilter ((cstr url).drop index) ((url.length : Int) - index) p = .ok none := by
          unfold indexOfFilter
          split
          · rfl
          · rw [if_pos (by omega)]
        rw [hnone, e2]
        refine ⟨?_, fun _ => ⟨false, rfl⟩⟩
        rintro (⟨-, k, h, -⟩ | ⟨k, -, h, -⟩)
        · simp at h
        · have := h.1
          simp at this
      · have hle : index ≤ url.length := by omega
        have hd1 : (cstr url).drop index = cstr (url.drop index) := by
          unfold cstr; rw [List.drop_append_of_le_length hle]
        have hd2 : ((url.length : Int) - index) = ((url.drop index).length : Int) := by simp; omega
        rw [hd1, hd2]
        obtain ⟨s1, s2⟩ := indexOfFilter_exact p (url.drop index) hudrop hp0
        by_cases hg : SearchGoesPast p (url.drop index)
        · rw [s1 hg]
          exact ⟨fun _ => rfl, fun h => absurd (.inl hg) h⟩
        · rcases s2 hg with ⟨k, hl, hk, hr⟩ | ⟨hno, hr⟩
          · rw [hr]
            simp only [Res.bind_ok]
            have key : (SearchGoesPast p (url.drop index) ∨ ∃ k, LookedFor p (url.drop index) ∧ FirstAt p (url.drop index) k ∧
                PartsGoPast terminated ps ((url.drop index).drop (k + p.length))) ↔
                PartsGoPast terminated ps (url.drop (index + k + p.length)) := by
              constructor
              · rintro (h | ⟨k', h1, h2, h3⟩)
                · exact absurd h hg
                · rw [firstAt_unique h2 hk, List.drop_drop] at h3
                  rwa [Nat.add_assoc]
              · intro h
                refine .inr ⟨k, hl, hk, ?_⟩
                rw [List.drop_drop, ← Nat.add_assoc]
                exact h
            rw [key]
            rcases hdec with ⟨rfl, rfl⟩ | ⟨d', rfl, hsp', hne⟩
            · simp only [↓reduceIte]
              exact ⟨fun h => h.elim, fun _ => ⟨true, rfl⟩⟩
            · have hl : ¬ p.length = (p ++ ch%'*' :: d').length := by simp
              have hrd : rd (p ++ ch%'*' :: d' ++ tail) p.length = .ok ch%'*' := by
                rw [List.append_assoc]; exact rd_append_length
              have hz : ¬ (ch%'*' : Byte) = 0 := by decide
              have hdrop : (p ++ ch%'*' :: d' ++ tail).drop (p.length + 1) = d' ++ tail := by
                rw [List.append_assoc, List.cons_append, List.drop_append, List.drop_eq_nil_of_le (by omega)]; simp
              have hsub : (p ++ ch%'*' :: d').length - (p.length + 1) = d'.length := by simp; omega
              have hd' : 0 ∉ d' := fun h => hd (by simp [h])
              obtain ⟨q, qs, hq⟩ := List.exists_cons_of_ne_nil hne
              rw [hq] at hsp'
              have hnp := getNextPos_split hd' tail hsp'
              have s3 := hk.1
              have hik : index + k < url.length := by simp at s3; omega
              have hrdi : rd (cstr url) (index + k) = .ok (url[index + k]) := by
                unfold cstr; exact rd_append_left hik
              have hnz : ¬ url[index + k] = 0 := by
                intro h; exact hu (by rw [← h]; exact List.getElem_mem hik)
              simp only [hl, ↓reduceIte, hrd, Res.bind_ok, hz, hdrop, hsub, hnp, hrdi, hnz]
              have hbound : index + k + p.length ≤ url.length + 1 := by
                have := partAt_length hk.2.1
                simp at this s3; omega
              rw [hq]
              exact ih d' q qs (index + k + p.length) (by simp at hf; omega) hd' hsp' hbound
          · rw [hr]
            refine ⟨?_, fun _ => ⟨false, rfl⟩⟩
            rintro (h | ⟨k, h1, h2, -⟩)
            · exact absurd h hg
            · exact absurd ⟨h1, h2⟩ (hno k)

theorem wildMatch_exact (url d : Bytes) (hu : 0 ∉ url) (hd : 0 ∉ d) (terminated : Bool) (tail : Ptr)
    (ht : if terminated then ∃ r, tail = 0 :: r else tail = []) :
    (PartsGoPast terminated (splitOn ch%'*' d) url → wildMatch none (cstr url) url.length (d ++ tail) d.length = .ub .oobRead) ∧
    (¬ PartsGoPast terminated (splitOn ch%'*' d) url → ∃ b, wildMatch none (cstr url) url.length (d ++ tail) d.length = .ok b) := by
  obtain ⟨p, ps, hsp⟩ := List.exists_cons_of_ne_nil (splitOn_ne_nil ch%'*' d)
  have h := wildLoop_exact url hu terminated tail ht (d.length + 1) d p ps 0 (by omega) hd hsp (by omega)
  unfold wildMatch
  rw [getNextPos_split hd tail hsp]
  rw [hsp]
  simpa using h

theorem partsGoPast_mono {ps : List Bytes} {u : Bytes} (h : PartsGoPast true ps u) : PartsGoPast false ps u := by
  induction ps generalizing u with
  | nil => exact h
  | cons p ps ih =>
    unfold PartsGoPast at h ⊢
    split
    · rfl
    · rename_i hn
      rw [if_neg hn] at h
      rcases h with h | ⟨k, h1, h2, h3⟩
      · exact .inl h
      · exact .inr ⟨k, h1, h2, ih h3⟩

/-- The end of the comparison, for rules without anchors or with a host anchor. -/
theorem matchesPattern_exact (f : Filter) (pat url : Bytes) (hp : 0 ∉ pat) (hu : 0 ∉ url) (terminated : Bool) (tail : Ptr)
    (ht : if terminated then ∃ r, tail = 0 :: r else tail = []) (hun : Unanchored f) :
    let past := (has f.filterType FTHostAnchored = true → SameSite (f.host.getD []) (getUrlHost url)) ∧
      PartsGoPast terminated (splitOn ch%'*' pat) url
    (past → f.matchesPattern (pat ++ tail) pat.length url none = .ub .oobRead) ∧
    (¬ past → ∃ b, f.matchesPattern (pat ++ tail) pat.length url none = .ok b) := by
  intro past
  obtain ⟨h1, h2, h3⟩ := hun
  obtain ⟨w1, w2⟩ := wildMatch_exact url pat hu hp terminated tail ht
  have hok : f.hostAnchorOk url none = true ↔ SameSite (f.host.getD []) (getUrlHost url) := by
    rw [← isThirdPartyHost_eq_false_iff]
    simp [Filter.hostAnchorOk]
  simp only [Filter.matchesPattern, h1, h2, h3, Bool.false_eq_true, ↓reduceIte, Bool.and_self]
  by_cases hc : has f.filterType FTHostAnchored = true ∧ ¬ SameSite (f.host.getD []) (getUrlHost url)
  · have e : (has f.filterType FTHostAnchored && !f.hostAnchorOk url none) = true := by
      have : ¬ f.hostAnchorOk url none = true := fun h => hc.2 (hok.1 h)
      simp [hc.1, this]
    rw [if_pos e]
    exact ⟨fun h => absurd (h.1 hc.1) hc.2, fun _ => ⟨false, rfl⟩⟩
  · have hc' : has f.filterType FTHostAnchored = true → SameSite (f.host.getD []) (getUrlHost url) :=
      fun h => Classical.byContradiction fun h' => hc ⟨h, h'⟩
    have e : ¬ (has f.filterType FTHostAnchored && !f.hostAnchorOk url none) = true := by
      intro h
      simp only [Bool.and_eq_true, Bool.not_eq_true'] at h
      have := hok.2 (hc' h.1)
      rw [h.2] at this
      cases this
    rw [if_neg e]
    exact ⟨fun h => w1 h.2, fun h => w2 fun h' => h ⟨hc', h'⟩⟩

/-- **C47** Exactly which comparisons of a rule, its text being terminated in memory, with an address read out of bounds:
those in which the options allow the request, the rule has neither a left nor a right anchor, its host, if it has one, is that
of the request, and the search for one of the parts goes past the end of the address.  All others give an answer. -/
theorem C47_exact (f : Filter) (pat url : Bytes) (ctx : Mask) (dom : Option Bytes) (hf : HasText f pat) (hu : 0 ∉ url) :
    (f.matches url ctx dom none = .ub .oobRead ↔
      f.matchesOptions ctx dom = true ∧ Unanchored f ∧
      (has f.filterType FTHostAnchored = true → SameSite (f.host.getD []) (getUrlHost url)) ∧
      PartsGoPast true (splitOn ch%'*' pat) url) ∧
    (f.matches url ctx dom none = .ub .oobRead ∨ ∃ b, f.matches url ctx dom none = .ok b) := by
  have fin : ∀ {P : Prop}, (P → f.matches url ctx dom none = .ub .oobRead) → (¬ P → ∃ b, f.matches url ctx dom none = .ok b) →
      (f.matches url ctx dom none = .ub .oobRead ↔ P) ∧ (f.matches url ctx dom none = .ub .oobRead ∨ ∃ b, f.matches url ctx dom none = .ok b) := by
    intro P h1 h2
    by_cases hP : P
    · exact ⟨⟨fun _ => hP, h1⟩, .inl (h1 hP)⟩
    · obtain ⟨b, hb⟩ := h2 hP
      exact ⟨⟨fun h => by rw [hb] at h; (cases h), h1⟩, .inr ⟨b, hb⟩⟩
  by_cases hm : f.matchesOptions ctx dom = true
  · obtain ⟨r, hr⟩ := matches_of_text hf url ctx dom none hm
    by_cases hun : Unanchored f
    · obtain ⟨m1, m2⟩ := matchesPattern_exact f pat url hf.1 hu true (0 :: r) ⟨r, rfl⟩ hun
      rw [← hr] at m1 m2
      exact fin (fun h => m1 h.2.2) (fun h => m2 fun h' => h ⟨hm, hun, h'⟩)
    · refine fin (fun h => absurd h.2.1 hun) fun _ => ?_
      by_cases h1 : has f.filterType FTRegex = true
      · exact ⟨false, by rw [hr]; simp [Filter.matchesPattern, h1]⟩
      · by_cases h2 : has f.filterType FTLeftAnchored = true
        · by_cases h3 : has f.filterType FTRightAnchored = true
          · obtain ⟨b, hb, _⟩ := C09_both_anchors f pat url ctx dom none hf hu (by simpa using h1) h2 h3
            exact ⟨b, hb⟩
          · obtain ⟨b, hb, _⟩ := C09_left_anchor f pat url ctx dom none hf hu (by simpa using h1) h2 (by simpa using h3)
            exact ⟨b, hb⟩
        · by_cases h3 : has f.filterType FTRightAnchored = true
          · obtain ⟨b, hb, _⟩ := C09_right_anchor f pat url ctx dom none hf hu (by simpa using h1) (by simpa using h2) h3
            exact ⟨b, hb⟩
          · exact absurd ⟨by simpa using h1, by simpa using h2, by simpa using h3⟩ hun
  · exact fin (fun h => absurd h.1 hm) fun _ => ⟨false, matches_false_of_options' hm⟩

/-- **C47** The same for the entries of the hash sets of hosts, whose text has no terminator. -/
theorem C47_exact_unterminated (f : Filter) (pat url : Bytes) (ctx : Mask) (dom : Option Bytes) (hp : 0 ∉ pat) (hd : f.data = some pat)
    (hl : f.dataLen = some pat.length) (hun : Unanchored f) (hu : 0 ∉ url) :
    (f.matches url ctx dom none = .ub .oobRead ↔
      f.matchesOptions ctx dom = true ∧
      (has f.filterType FTHostAnchored = true → SameSite (f.host.getD []) (getUrlHost url)) ∧
      PartsGoPast false (splitOn ch%'*' pat) url) ∧
    (f.matches url ctx dom none = .ub .oobRead ∨ ∃ b, f.matches url ctx dom none = .ok b) := by
  by_cases hm : f.matchesOptions ctx dom = true
  · have hr : f.matches url ctx dom none = f.matchesPattern (pat ++ []) pat.length url none := by
      unfold Filter.matches
      simp [hm, hd, hl]
    obtain ⟨m1, m2⟩ := matchesPattern_exact f pat url hp hu false [] rfl hun
    rw [← hr] at m1 m2
    by_cases hP : (has f.filterType FTHostAnchored = true → SameSite (f.host.getD []) (getUrlHost url)) ∧
      PartsGoPast false (splitOn ch%'*' pat) url
    · exact ⟨⟨fun _ => ⟨hm, hP⟩, fun _ => m1 hP⟩, .inl (m1 hP)⟩
    · obtain ⟨b, hb⟩ := m2 hP
      exact ⟨⟨fun h => by rw [hb] at h; (cases h), fun h => absurd h.2 hP⟩, .inr ⟨b, hb⟩⟩
  · have := matches_false_of_options' (url := url) (bloom := none) hm
    exact ⟨⟨fun h => by rw [this] at h; (cases h), fun h => absurd h.1 hm⟩, .inr ⟨false, this⟩⟩

/-- comparing a string with bytes that are not terminated -/
theorem strcmpEq_unterminated (u p : Bytes) (h : u.length = p.length) (hu : 0 ∉ u) :
    (u = p → strcmpEq (cstr u) p = .ub .oobRead) ∧ (u ≠ p → strcmpEq (cstr u) p = .ok false) := by
  induction u generalizing p with
  | nil =>
    cases p with
    | nil => exact ⟨fun _ => rfl, fun h => absurd rfl h⟩
    | cons => cases h
  | cons a u ih =>
    cases p with
    | nil => cases h
    | cons b p =>
      simp only [List.mem_cons, not_or] at hu
      obtain ⟨i1, i2⟩ := ih p (by simpa using h) hu.2
      have e : strcmpEq (cstr (a :: u)) (b :: p) = if a ≠ b then .ok false else if a = 0 then .ok true else strcmpEq (cstr u) p := rfl
      rw [e]
      by_cases hab : a = b
      · subst hab
        rw [if_neg (by simp), if_neg (fun e => hu.1 e.symm)]
        simpa using ⟨i1, i2⟩
      · rw [if_pos hab]
        exact ⟨fun h => absurd (List.cons.inj h).1 hab, fun _ => rfl⟩

/-- **C47** The same for entries with a right anchor, which have a bar in the host: the comparison reads out of bounds
exactly if the address ends with the text. -/
theorem C47_exact_unterminated_right (f : Filter) (pat url : Bytes) (ctx : Mask) (dom : Option Bytes) (hd : f.data = some pat)
    (hl : f.dataLen = some pat.length) (h1 : has f.filterType FTRegex = false) (h2 : has f.filterType FTLeftAnchored = false)
    (h3 : has f.filterType FTRightAnchored = true) (hu : 0 ∉ url) :
    (f.matches url ctx dom none = .ub .oobRead ↔ f.matchesOptions ctx dom = true ∧ pat <:+ url) ∧
    (f.matches url ctx dom none = .ub .oobRead ∨ ∃ b, f.matches url ctx dom none = .ok b) := by
  by_cases hm : f.matchesOptions ctx dom = true
  · have hr : f.matches url ctx dom none =
        if pat.length > url.length then .ok false else strcmpEq ((cstr url).drop (url.length - pat.length)) pat := by
      unfold Filter.matches
      simp [hm, hd, hl, Filter.matchesPattern, h1, h2, h3]
    by_cases hlen : pat.length > url.length
    · rw [if_pos hlen] at hr
      refine ⟨⟨fun h => by rw [hr] at h; (cases h), fun h => ?_⟩, .inr ⟨false, hr⟩⟩
      have := h.2.length_le
      omega
    · rw [if_neg hlen, show (cstr url).drop (url.length - pat.length) = cstr (url.drop (url.length - pat.length)) by
        unfold cstr
        rw [List.drop_append_of_le_length (by omega)]] at hr
      obtain ⟨s1, s2⟩ := strcmpEq_unterminated (url.drop (url.length - pat.length)) pat (by rw [List.length_drop]; omega)
        (fun h => hu (List.mem_of_mem_drop h))
      by_cases he : url.drop (url.length - pat.length) = pat
      · rw [s1 he] at hr
        exact ⟨⟨fun _ => ⟨hm, ⟨url.take (url.length - pat.length), by rw [← he, List.length_drop]; simp [Nat.sub_sub_self (Nat.le_of_not_lt hlen)]⟩⟩, fun _ => hr⟩, .inl hr⟩
      · rw [s2 he] at hr
        refine ⟨⟨fun h => by rw [hr] at h; (cases h), fun h => ?_⟩, .inr ⟨false, hr⟩⟩
        obtain ⟨x, rfl⟩ := h.2
        exact absurd (by simp) he
  · have := matches_false_of_options' (url := url) (bloom := none) hm
    exact ⟨⟨fun h => by rw [this] at h; (cases h), fun h => absurd h.1 hm⟩, .inr ⟨false, this⟩⟩

/-! ### sufficient conditions -/

theorem searchGoesPast_caret {p u : Bytes} (h : SearchGoesPast p u) : ¬ CaretSafe p u := by
  obtain ⟨-, k, hk, ⟨a, b, h1, h2, h3, h4⟩, -⟩ := h
  intro hs
  refine hs a b h1 ?_ h2 (u.drop k) (List.drop_suffix k u) h3.symm h4
  rintro rfl
  simp at h3
  omega

theorem partsGoPast_caret {terminated : Bool} {ps : List Bytes} {u : Bytes} (h : PartsGoPast terminated ps u) :
    (∃ p ∈ ps, ¬ CaretSafe p u) ∨ (terminated = false ∧ ps.getLast? = some []) := by
  induction ps generalizing u with
  | nil => exact h.elim
  | cons p ps ih =>
    unfold PartsGoPast at h
    split at h
    · rename_i hn
      obtain ⟨rfl, rfl⟩ := hn
      exact .inr ⟨h, rfl⟩
    · rcases h with h | ⟨k, -, -, h⟩
      · exact .inl ⟨p, by simp, searchGoesPast_caret h⟩
      · rcases ih h with ⟨q, hq, hc⟩ | ⟨h1, h2⟩
        · refine .inl ⟨q, by simp [hq], fun hs => hc ?_⟩
          exact fun a b e ha hb v hv => hs a b e ha hb v (hv.trans (List.drop_suffix _ _))
        · refine .inr ⟨h1, ?_⟩
          rw [List.getLast?_cons, h2]
          rfl

theorem splitOn_last {sep : Byte} {d : Bytes} (h : (splitOn sep d).getLast? = some []) : d = [] ∨ d.getLast? = some sep := by
  induction d with
  | nil => exact .inl rfl
  | cons c d ih =>
    right
    obtain ⟨p, ps, hsp⟩ := List.exists_cons_of_ne_nil (splitOn_ne_nil sep d)
    unfold splitOn at h
    split at h
    · rename_i hc
      subst hc
      rw [List.getLast?_cons, hsp] at h
      rw [← hsp, Option.some.injEq] at h
      have : (splitOn c d).getLast? = some [] := by
        rw [List.getLast?_eq_some_getLast (splitOn_ne_nil c d)] at h ⊢
        simpa using h
      rcases ih this with rfl | h'
      · rfl
      · rw [List.getLast?_cons, h']; rfl
    · rw [hsp] at h
      dsimp only at h
      cases ps with
      | nil => simp at h
      | cons q qs =>
        have : (splitOn sep d).getLast? = some [] := by
          rw [hsp]
          simpa [List.getLast?_cons] using h
        rcases ih this with rfl | h'
        · simp [splitOn] at hsp
        · rw [List.getLast?_cons, h']; rfl

/-! ### examples -/

/-- the rule of `C47_counterexample` -/
private def exPast : Filter := { data := some (cstr bs%"foo^oo") }

example : PartsGoPast true (splitOn ch%'*' bs%"foo^oo") bs%"http://a.foo" :=
  ((C47_exact exPast bs%"foo^oo" bs%"http://a.foo" 0 none ⟨by decide, ⟨[], rfl⟩, .inl rfl⟩ (by decide)).1.1 (by decide +kernel)).2.2.2

/-- another character ends the search before the place where it would go past the end -/
private def exStop : Filter := { data := some (cstr bs%"/^/b") }

example : ¬ PartsGoPast true (splitOn ch%'*' bs%"/^/b") bs%"http:///" ∧ ¬ CaretSafe bs%"/^/b" bs%"http:///" := by
  refine ⟨fun h => ?_, fun h => h bs%"/" bs%"/b" rfl (by decide) (by decide) bs%"/" ⟨bs%"http://", rfl⟩ rfl ⟨.inl rfl, trivial⟩⟩
  have := (C47_exact exStop bs%"/^/b" bs%"http:///" 0 none ⟨by decide, ⟨[], rfl⟩, .inl rfl⟩ (by decide)).1.2
    ⟨by decide +kernel, ⟨by decide, by decide, by decide⟩, fun h => absurd h (by decide), h⟩
  exact absurd this (by decide +kernel)

end AdBlock
