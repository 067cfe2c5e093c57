import Verif.Props.Longer
/-
Addresses that differ in their scheme, and those of subdomains.
-/
namespace AdBlock
open Spec

theorem htpsw_not_sep : ∀ c : Byte, lower c ∈ bs%"htpsw" → ¬ IsSep c := byte_forall (by decide +kernel)

theorem web_scheme {q : Request} (hq : q.Web) : q.scheme ≠ [] ∧ ∀ c ∈ q.scheme, lower c ∈ bs%"htpsw" := by
  have h := hq.scheme
  constructor
  · intro h0
    rw [h0] at h
    revert h
    decide +kernel
  · intro c hc
    have hm : lower c ∈ q.scheme.map lower := List.mem_map_of_mem hc
    generalize q.scheme.map lower = s at h hm
    generalize lower c = d at hm
    simp only [List.mem_cons, List.not_mem_nil, or_false] at h
    rcases h with rfl | rfl | rfl | rfl <;> exact byte_forall (P := fun d => d ∈ _ → d ∈ _) (by decide +kernel) d hm

/-- A text that begins with such letters and goes on with something else fits no such letters followed by a colon. -/
theorem not_partAt_colon {a b s z : Bytes} {c : Byte} (ha : ∀ x ∈ a, lower x ∈ bs%"htpsw") (hc : lower c ∉ bs%"htpsw") (hc' : c ≠ ch%':' ∧ c ≠ ch%'^')
    (hs : ∀ x ∈ s, lower x ∈ bs%"htpsw") : ¬ PartAt (a ++ c :: b) (s ++ ch%':' :: z) := by
  induction a generalizing s with
  | nil =>
    cases s with
    | nil => rintro ⟨h | h, -⟩
             · exact hc'.1 h
             · exact hc'.2 h.1
    | cons d s => rintro ⟨h | h, -⟩
                  · exact hc (h ▸ hs d (by simp))
                  · exact hc'.2 h.1
  | cons x a ih =>
    have hx := ha x (by simp)
    cases s with
    | nil =>
      rintro ⟨h | h, -⟩
      · rw [h] at hx; revert hx; decide +kernel
      · rw [h.1] at hx; revert hx; decide +kernel
    | cons d s => exact fun h => ih (fun y hy => ha y (List.mem_cons_of_mem _ hy)) (fun y hy => hs y (List.mem_cons_of_mem _ hy)) h.2

theorem not_partAt_scheme {t t' s z : Bytes} (ht : SchemeFree t) (ht' : ∃ ps, splitOn ch%'*' t = t' :: ps) (hs : ∀ x ∈ s, lower x ∈ bs%"htpsw")
    (hne : s ≠ []) : ¬ PartAt t' (s ++ ch%':' :: z) := by
  obtain ⟨a, c, b, rfl, ha, hc, hstar, hor⟩ := ht
  obtain ⟨ps, ht'⟩ := ht'
  have hsa : ch%'*' ∉ a := fun h => absurd (ha _ h) (by decide +kernel)
  have : ∃ b', t' = a ++ c :: b' := by
    clear ha hor
    induction a generalizing t' with
    | nil =>
      simp only [List.nil_append, splitOn, if_neg hstar] at ht'
      split at ht' <;> · cases ht'; exact ⟨_, rfl⟩
    | cons x a ih =>
      have hx : x ≠ ch%'*' := fun h => hsa (by simp [h])
      simp only [List.cons_append, splitOn, if_neg hx] at ht'
      split at ht'
      · rename_i h
        exact absurd h (splitOn_ne_nil _ _)
      · rename_i p ps' h
        cases ht'
        obtain ⟨b', rfl⟩ := ih h (fun h => hsa (List.mem_cons_of_mem _ h))
        exact ⟨b', rfl⟩
  obtain ⟨b', rfl⟩ := this
  rcases hor with rfl | hc'
  · cases s with
    | nil => exact absurd rfl hne
    | cons d s =>
      rintro ⟨h | h, -⟩
      · exact hc (h ▸ hs d (by simp))
      · exact htpsw_not_sep d (hs d (by simp)) h.2
  · exact not_partAt_colon ha hc hc' hs

/-- What fits behind `pre` also does so behind anything else. -/
theorem placed_behind {t p pre pre' y : Bytes} {ps : List Bytes} (hs : splitOn ch%'*' t = p :: ps) (hp : p ≠ [])
    (h0 : ∀ k < pre.length, ¬ PartAt p ((pre ++ y).drop k)) (hpre : pre' ≠ []) (h : Placed t (pre ++ y)) : Placed t (pre' ++ y) := by
  unfold Placed at h ⊢
  rw [hs] at h ⊢
  rcases h with ⟨h, -⟩ | ⟨h1, -, k, h3, h4, h5⟩
  · exact absurd h hp
  have hk : pre.length ≤ k := by
    rcases Nat.lt_or_ge k pre.length with hk | hk
    · exact absurd h4 (h0 k hk)
    · exact hk
  obtain ⟨j, rfl⟩ : ∃ j, k = pre.length + j := ⟨k - pre.length, by omega⟩
  have e : ∀ (x : Bytes) n, (x ++ y).drop (x.length + n) = y.drop n := fun x n => by rw [← List.drop_drop, List.drop_left]
  rw [e] at h4
  rw [Nat.add_assoc, e] at h5
  have hl := partAt_length h4
  have hpos := List.length_pos_iff.2 hpre
  simp only [List.length_append, List.length_drop] at h3 hl
  refine .inr ⟨h1, by simp only [List.length_append]; omega, pre'.length + j, by simp only [List.length_append]; omega, ?_, ?_⟩
  · rw [e]; exact h4
  · rw [Nat.add_assoc, e]; exact h5

theorem split_head (t : Bytes) : ∃ p ps, splitOn ch%'*' t = p :: ps := by
  match h : splitOn ch%'*' t with
  | [] => exact absurd h (splitOn_ne_nil _ _)
  | p :: ps => exact ⟨p, ps, rfl⟩

theorem schemeFree_head {t p : Bytes} {ps : List Bytes} (ht : SchemeFree t) (h : splitOn ch%'*' t = p :: ps) : p ≠ [] := by
  rintro rfl
  exact not_partAt_scheme (s := bs%"h") (z := []) ht ⟨ps, h⟩ (by decide +kernel) (by decide) trivial

theorem drop_scheme {s y : Bytes} {k : Nat} (hk : k < s.length) : (s ++ y).drop k = s.drop k ++ y ∧ s.drop k ≠ [] :=
  ⟨List.drop_append_of_le_length (by omega), fun h => by have := congrArg List.length h; simp at this; omega⟩

theorem partAt_first {t p : Bytes} {ps : List Bytes} (h : splitOn ch%'*' t = p :: ps) {y : Bytes} : PartAt p (t ++ y) := by
  obtain ⟨w, hw⟩ : ∃ w, t = p ++ w := by
    induction t generalizing p ps with
    | nil => cases h; exact ⟨[], rfl⟩
    | cons c t ih =>
      unfold splitOn at h
      split at h
      · cases h; exact ⟨_, rfl⟩
      · split at h
        · rename_i h0
          exact absurd h0 (splitOn_ne_nil _ _)
        · rename_i h0
          cases h
          obtain ⟨w, hw⟩ := ih h0
          exact ⟨w, by rw [hw]; rfl⟩
  rw [hw, List.append_assoc]
  exact partAt_self_append _ _

theorem fits_scheme {r : RuleText} (hl : r.anchor ≠ .left) (ht : SchemeFree r.text) {q : Request} {scheme : Bytes} (hq : q.Web) (hne : scheme ≠ [])
    (h : r.AddressFits q) : r.AddressFits { q with scheme := scheme } := by
  obtain ⟨-, hs⟩ := web_scheme hq
  obtain ⟨p, ps, hp⟩ := split_head r.text
  have e : ∀ q : Request, q.url = q.scheme ++ (bs%"://" ++ q.host ++ q.rest) := fun q => by simp [Request.url]
  have hplaced : Placed r.text q.url → Placed r.text (Request.url { q with scheme := scheme }) := by
    rw [e, e]
    refine placed_behind hp (schemeFree_head ht hp) (fun k hk => ?_) hne
    obtain ⟨h1, h2⟩ := drop_scheme (y := bs%"://" ++ q.host ++ q.rest) hk
    rw [h1]
    exact not_partAt_scheme ht ⟨ps, hp⟩ (fun x hx => hs x (List.mem_of_mem_drop hx)) h2
  have hsuffix : r.text <:+ q.url → r.text <:+ Request.url { q with scheme := scheme } := by
    rw [e, e]
    rintro ⟨w, hw⟩
    rcases List.append_eq_append_iff.1 hw with ⟨x, h1, h2⟩ | ⟨x, h1, h2⟩
    · cases x with
      | nil => exact ⟨scheme, by rw [h2]; simp⟩
      | cons d x =>
        exfalso
        have h3 : PartAt p ((d :: x) ++ (bs%"://" ++ q.host ++ q.rest)) := by
          rw [← h2]
          exact (List.append_nil r.text) ▸ partAt_first (y := []) hp
        exact not_partAt_scheme ht ⟨ps, hp⟩ (fun y hy => hs y (by rw [h1]; exact List.mem_append_right _ hy)) (by simp) h3
    · exact ⟨scheme ++ x, by rw [h2]; simp⟩
  unfold RuleText.AddressFits at h ⊢
  cases ha : r.anchor <;> cases hb : r.rightBar <;> rw [ha, hb] at h
  · exact hplaced h
  · exact hsuffix h
  · exact absurd ha hl
  · exact absurd ha hl
  · exact ⟨h.1, hplaced h.2⟩
  · exact hsuffix h

/-- **C93**: requests that differ only in the scheme of their addresses get the same answer, if no rule says anything about it: none begins
with a single bar, and their texts cannot fit anything that begins in a scheme. -/
theorem C93_scheme {E : Env} {A : Bytes} {rs : List RuleText} (hA : Lists E A rs) (hr : ∀ r ∈ rs, r.anchor ≠ .left ∧ SchemeFree r.text)
    {q : Request} {scheme : Bytes} (preserve : Bool) (tags : List Bytes) (hq : Askable E rs q) (hq' : Askable E rs { q with scheme := scheme }) :
    ∃ b, Answers E A preserve tags q b ∧ Answers E A preserve tags { q with scheme := scheme } b := by
  obtain ⟨b, h1, h2⟩ := answers_iff hA preserve tags hq
  obtain ⟨b', h3, h4⟩ := answers_iff hA preserve tags hq'
  have key : ∀ r ∈ rs, (Counted E.bad rs q r ∧ r.AppliesTo tags q) ↔
      (Counted E.bad rs { q with scheme := scheme } r ∧ r.AppliesTo tags { q with scheme := scheme }) := by
    intro r hr'
    constructor
    · rintro ⟨hc, ha1, ha2, ha3, ha4, ha5⟩
      exact ⟨⟨hc.host, hc.page, hc.excluded⟩, ha1, ha2, ha3, ha4, fits_scheme (hr r hr').1 (hr r hr').2 hq.web (web_scheme hq'.web).1 ha5⟩
    · rintro ⟨hc, ha1, ha2, ha3, ha4, ha5⟩
      exact ⟨⟨hc.host, hc.page, hc.excluded⟩, ha1, ha2, ha3, ha4,
        fits_scheme (q := { q with scheme := scheme }) (scheme := q.scheme) (hr r hr').1 (hr r hr').2 hq'.web (web_scheme hq.web).1 ha5⟩
  have : b = b' := by
    rw [Bool.eq_iff_iff, h2, h4]
    refine and_congr (exists_congr fun r => and_congr_right fun hr' => and_congr_right fun _ => key r hr')
      (not_congr (exists_congr fun r => and_congr_right fun hr' => and_congr_right fun _ => key r hr'))
  exact ⟨b, h1, this ▸ h3⟩

/-! ### subdomains -/

theorem first_other {h : Bytes} (hd : ch%'.' ∈ h) : ∃ a c b, h = a ++ c :: b ∧ (∀ x ∈ a, lower x ∈ bs%"htpsw") ∧ lower c ∉ bs%"htpsw" := by
  induction h with
  | nil => cases hd
  | cons x h ih =>
    by_cases hx : lower x ∈ bs%"htpsw"
    · have : ch%'.' ∈ h := by
        rcases List.mem_cons.1 hd with rfl | hd
        · exact absurd hx (by decide +kernel)
        · exact hd
      obtain ⟨a, c, b, rfl, h1, h2⟩ := ih this
      exact ⟨x :: a, c, b, rfl, List.forall_mem_cons.2 ⟨hx, h1⟩, h2⟩
    · exact ⟨[], x, h, rfl, by simp, hx⟩

/-- The text of a rule for a host begins with this, which has no separators. -/
theorem forHost_facts {r : RuleText} (h : ForHost r) : SchemeFree r.text ∧ ∃ c t, r.text = c :: t ∧ ¬ IsSep c ∧ c ≠ ch%'*' := by
  obtain ⟨ho, -, -, hd, hstar⟩ := h
  have hp : r.hostPart = r.text.takeWhile fun c => decide (¬ IsSep c) := by unfold RuleText.hostPart; rw [ho]
  have hsep : ∀ c ∈ r.hostPart, ¬ IsSep c := by
    intro c hc
    rw [hp] at hc
    simpa using (List.all_eq_true.1 (List.all_takeWhile (p := fun c => decide (¬ IsSep c))) c hc)
  obtain ⟨rest, hrest⟩ : ∃ rest, r.text = r.hostPart ++ rest := by
    rw [hp]
    exact ⟨_, (List.takeWhile_append_dropWhile).symm⟩
  obtain ⟨a, c, b, he, h1, h2⟩ := first_other hd
  have hc := hsep c (by rw [he]; simp)
  refine ⟨⟨a, c, b ++ rest, by rw [hrest, he]; simp, h1, h2, fun h => hstar (by rw [he, ← h]; simp), .inr ⟨?_, ?_⟩⟩, ?_⟩
  · rintro rfl; exact hc (by decide +kernel)
  · rintro rfl; exact hc (by decide +kernel)
  · cases hh : r.hostPart with
    | nil => rw [hh] at hd; cases hd
    | cons x t =>
      rw [hh] at hrest hsep hstar
      exact ⟨x, t ++ rest, hrest, hsep x (by simp), fun h => hstar (by simp [h])⟩

theorem fits_subdomain {r : RuleText} (hr : ForHost r) {q : Request} {sub : Bytes} (hq : q.Web) (h : r.AddressFits q) :
    r.AddressFits { q with host := sub ++ ch%'.' :: q.host } := by
  obtain ⟨-, hs⟩ := web_scheme hq
  obtain ⟨hfree, c, t, htext, hsep, hstar⟩ := forHost_facts hr
  obtain ⟨p, ps, hp⟩ := split_head r.text
  obtain ⟨-, ha, hb, -, -⟩ := hr
  unfold RuleText.AddressFits at h ⊢
  rw [ha, hb] at h ⊢
  refine ⟨sameSite_trans h.1 (.inr ⟨sub, rfl⟩), ?_⟩
  have e1 : q.url = (q.scheme ++ bs%"://") ++ (q.host ++ q.rest) := by simp [Request.url]
  have e2 : Request.url { q with host := sub ++ ch%'.' :: q.host } = (q.scheme ++ bs%"://" ++ sub ++ bs%".") ++ (q.host ++ q.rest) := by simp [Request.url]
  have h2 := h.2
  rw [e1] at h2
  rw [e2]
  refine placed_behind hp (schemeFree_head hfree hp) (fun k hk hat => ?_) (by simp) h2
  by_cases hk' : k < q.scheme.length
  · obtain ⟨h3, h4⟩ := drop_scheme (y := bs%"://" ++ (q.host ++ q.rest)) hk'
    rw [List.append_assoc, h3] at hat
    exact not_partAt_scheme hfree ⟨ps, hp⟩ (fun x hx => hs x (List.mem_of_mem_drop hx)) h4 hat
  · obtain ⟨j, rfl⟩ : ∃ j, k = q.scheme.length + j := ⟨k - q.scheme.length, by omega⟩
    have hj : j < 3 := by simp only [List.length_append, List.length_cons, List.length_nil] at hk; omega
    rw [List.append_assoc, ← List.drop_drop, List.drop_left] at hat
    have hp' : ∃ p', p = c :: p' := by
      rw [htext] at hp
      simp only [splitOn, if_neg hstar] at hp
      split at hp <;> · cases hp; exact ⟨_, rfl⟩
    obtain ⟨p', rfl⟩ := hp'
    have h5 : ∀ d, (c = d ∨ (c = ch%'^' ∧ IsSep d)) → IsSep d → False := by
      rintro d (rfl | ⟨rfl, -⟩) hd
      · exact hsep hd
      · exact hsep (by decide +kernel)
    match j, hj with
    | 0, _ => exact h5 _ hat.1 (by decide +kernel)
    | 1, _ => exact h5 _ hat.1 (by decide +kernel)
    | 2, _ => exact h5 _ hat.1 (by decide +kernel)

/-- **C94**, as far as it holds: what is blocked by rules for hosts with a dot is also blocked for subdomains of its host, unless an exception
applies to them, or the page belongs to the subdomain and the rules are for other pages only. -/
theorem C94_subdomain_partial {E : Env} {A : Bytes} {rs : List RuleText} (hA : Lists E A rs) {tags : List Bytes} {q : Request} {sub : Bytes}
    (hr : ∀ r ∈ rs, r.exception = false → ForHost r)
    (hd : ∀ r ∈ rs, r.Says bs%"third-party" → ∀ d, q.domain = some d → ¬ SameSite d (sub ++ ch%'.' :: q.host))
    (he : ∀ r ∈ rs, r.exception = true → ¬ r.AppliesTo tags { q with host := sub ++ ch%'.' :: q.host })
    (preserve : Bool) (hq : Askable E rs q) (hq' : Askable E rs { q with host := sub ++ ch%'.' :: q.host })
    (h : Answers E A preserve tags q true) : Answers E A preserve tags { q with host := sub ++ ch%'.' :: q.host } true := by
  obtain ⟨b, h1, h2⟩ := answers_iff hA preserve tags hq
  obtain ⟨b', h3, h4⟩ := answers_iff hA preserve tags hq'
  rw [answers_unique h1 h] at h2
  obtain ⟨⟨r, hr', hre, hc, ha1, ha2, ha3, ha4, ha5⟩, -⟩ := h2.1 rfl
  have : b' = true := by
    rw [h4]
    refine ⟨⟨r, hr', hre, ⟨fun hh => ⟨(hc.host hh).1, .inr (hr r hr' hre).2.2.2.1⟩, hc.page, hc.excluded⟩, ha1, ha2, fun d hdom => ?_, ha4,
      fits_subdomain (hr r hr' hre) hq.web ha5⟩, fun ⟨x, hx, hxe, _, hxa⟩ => he x hx hxe hxa⟩
    obtain ⟨h5, h6, h7⟩ := ha3 d hdom
    exact ⟨fun hs => hd r hr' hs d hdom, fun hs => sameSite_trans (h6 hs) (.inr ⟨sub, rfl⟩), h7⟩
  exact this ▸ h3

/-- **C94** for exceptions, as far as it holds: one for a host, which applies to a request, also keeps those to subdomains from being blocked,
unless a known defect is to do with it. -/
theorem C94_exception_partial {E : Env} {A : Bytes} {rs : List RuleText} (hA : Lists E A rs) {tags : List Bytes} {q : Request} {sub : Bytes}
    {r : RuleText} (hr : r ∈ rs) (he : r.exception = true) (hrel : Reliable E.bad rs r) (hh : ForHost r)
    (hd : r.Says bs%"third-party" → ∀ d, q.domain = some d → ¬ SameSite d (sub ++ ch%'.' :: q.host)) (ha : r.AppliesTo tags q)
    (preserve : Bool) (hq : q.Web) (hq' : Askable E rs { q with host := sub ++ ch%'.' :: q.host }) :
    Answers E A preserve tags { q with host := sub ++ ch%'.' :: q.host } false := by
  obtain ⟨b, h1, h2⟩ := answers_iff hA preserve tags hq'
  have : b = false := by
    rw [← Bool.not_eq_true, h2]
    refine fun h => h.2 ⟨r, hr, he, reliable_counted hrel _, ha.1, ha.2.1, fun d hdom => ?_, ha.2.2.2.1, fits_subdomain hh hq ha.2.2.2.2⟩
    obtain ⟨h5, h6, h7⟩ := ha.2.2.1 d hdom
    exact ⟨fun hs => hd hs d hdom, fun hs => sameSite_trans (h6 hs) (.inr ⟨sub, rfl⟩), h7⟩
  exact this ▸ h1

/-! ### examples -/

/-- **C93**, an example: a list that treats all schemes alike. -/
example {E : Env} (hroll : ∀ url, E.fp.rolls url) : ∃ b, Answers E bs%"||ads.com^\nbanner\n@@ok.js" false [] exBanner b ∧
    Answers E bs%"||ads.com^\nbanner\n@@ok.js" false [] { exBanner with scheme := bs%"ws" } b := by
  let rs : List RuleText := [{ anchor := .host, text := bs%"ads.com^" }, { text := bs%"banner" }, { exception := true, text := bs%"ok.js" }]
  have hp : ∀ r ∈ rs, plainRule r = true := by decide +kernel
  refine C93_scheme (rs := rs) (lists_rules (plainRules_sound hp) (by simp [rs])) ?_ false [] (plainRules_askable hroll hp exBanner_web)
    (plainRules_askable hroll hp ⟨by decide +kernel, exBanner_web.host, exBanner_web.rest, exBanner_web.text, exBanner_web.type⟩)
  intro r hr
  simp only [rs, List.mem_cons, List.not_mem_nil, or_false] at hr
  rcases hr with rfl | rfl | rfl
  · exact ⟨nofun, [], ch%'a', bs%"ds.com^", rfl, by simp, by decide +kernel, by decide, .inl rfl⟩
  · exact ⟨nofun, [], ch%'b', bs%"anner", rfl, by simp, by decide +kernel, by decide, .inl rfl⟩
  · exact ⟨nofun, [], ch%'o', bs%"k.js", rfl, by simp, by decide +kernel, by decide, .inl rfl⟩

/-- Other rules may well make a difference between schemes: the condition of **C93** is needed. -/
example {E : Env} (hroll : ∀ url, E.fp.rolls url) : Answers E bs%"ps^" false [] exBanner true ∧
    Answers E bs%"ps^" false [] { exBanner with scheme := bs%"http" } false :=
  ⟨answers_compared (v := true) (r := { text := bs%"ps^" }) hroll (by decide +kernel) rfl (.inl (by decide +kernel)) (by decide +kernel)
    (by decide +kernel) exBanner_web (by decide +kernel),
   answers_compared (v := false) (r := { text := bs%"ps^" }) (q := { exBanner with scheme := bs%"http" }) hroll (by decide +kernel) rfl (.inl (by decide +kernel)) (by decide +kernel)
    (by decide +kernel) ⟨by decide +kernel, exBanner_web.host, exBanner_web.rest, exBanner_web.text, exBanner_web.type⟩ (by decide +kernel)⟩

/-- **C94**, an example: a rule with a path and an option. -/
example {E : Env} (hroll : ∀ url, E.fp.rolls url) : Answers E bs%"||b.com/ban$third-party" false [] { exBanner with host := bs%"a.b.com" } true := by
  have hp : ∀ r ∈ [({ anchor := .host, text := bs%"b.com/ban", options := some bs%"third-party" } : RuleText)], plainRule r = true := by decide +kernel
  refine C94_subdomain_partial (q := exBanner) (sub := bs%"a") (lists_rules (plainRules_sound hp) (by simp)) ?_ ?_ (by simp) false
    (plainRules_askable hroll hp exBanner_web)
    (plainRules_askable hroll hp ⟨exBanner_web.scheme, ⟨by decide +kernel, by decide +kernel⟩, exBanner_web.rest, ⟨by decide +kernel, exBanner_web.text.2⟩,
      exBanner_web.type⟩)
    (answers_compared (v := true) (r := { anchor := .host, text := bs%"b.com/ban", options := some bs%"third-party" }) hroll (by decide +kernel) rfl
      (.inl (by decide +kernel)) (by decide +kernel) (by decide +kernel) exBanner_web (by decide +kernel))
  · intro r hr _
    rw [List.mem_singleton.1 hr]
    exact ⟨rfl, rfl, rfl, by decide +kernel, by decide +kernel⟩
  · intro r _ _ d hdom
    cases hdom

/-- **C94** for exceptions, an example. -/
example {E : Env} (hroll : ∀ url, E.fp.rolls url) : Answers E bs%"banner\n@@||b.com^" false [] { exBanner with host := bs%"a.b.com" } false := by
  let r : RuleText := { exception := true, anchor := .host, text := bs%"b.com^" }
  have hp : ∀ x ∈ [({ text := bs%"banner" } : RuleText), r], plainRule x = true := by decide +kernel
  refine C94_exception_partial (rs := [({ text := bs%"banner" } : RuleText), r]) (r := r) (q := exBanner) (sub := bs%"a")
    (lists_rules (plainRules_sound hp) (by simp)) (by simp) rfl ⟨fun _ => ⟨by decide +kernel, [{ text := bs%"banner" }], [], rfl, ?_⟩, .inl (by decide +kernel)⟩
    ⟨rfl, rfl, rfl, by decide +kernel, by decide +kernel⟩ (fun _ d hdom => nomatch hdom)
    ((applies_compared (v := true) (by decide +kernel) exBanner_web (by decide +kernel) (by decide +kernel) []).2 rfl) false exBanner_web
    (plainRules_askable hroll hp ⟨exBanner_web.scheme, ⟨by decide +kernel, by decide +kernel⟩, exBanner_web.rest, ⟨by decide +kernel, exBanner_web.text.2⟩,
      exBanner_web.type⟩)
  intro x hx hk
  rw [List.mem_singleton.1 hx] at hk
  exact nomatch hk.1.1

def exIntranet : Request := exRequest bs%"intranet" bs%"/banner" (some (bs%"script", FOScript)) none

theorem exIntranet_web : exIntranet.Web :=
  ⟨by decide +kernel, ⟨by decide +kernel, by decide +kernel⟩, .inr ⟨ch%'/', bs%"banner", rfl, by decide +kernel⟩, by decide +kernel, by
    intro t h; cases h; decide +kernel⟩

/-- **C94** fails for rules for hosts without a dot. -/
theorem C94_dot_counterexample {E : Env} (hroll : ∀ url, E.fp.rolls url) : Answers E bs%"||intranet^" false [] exIntranet true ∧
    Answers E bs%"||intranet^" false [] { exIntranet with host := bs%"a.intranet" } false := by
  let r : RuleText := { anchor := .host, text := bs%"intranet^" }
  have hp : ∀ x ∈ [r], plainRule x = true := by decide +kernel
  have hl : Lists E bs%"||intranet^" [r] := lists_rules (plainRules_sound hp) (by simp)
  have hq := plainRules_askable (E := E) hroll hp exIntranet_web
  have hq' := plainRules_askable (E := E) (q := { exIntranet with host := bs%"a.intranet" }) hroll hp
    ⟨exIntranet_web.scheme, ⟨by decide +kernel, by decide +kernel⟩, exIntranet_web.rest, ⟨by decide +kernel, exIntranet_web.text.2⟩, exIntranet_web.type⟩
  have hhost : r.HostOnly := by decide +kernel
  constructor
  · obtain ⟨b, h1, h2⟩ := answers_iff hl false [] hq
    have : b = true := by
      rw [h2]
      refine ⟨⟨r, by simp, rfl, ⟨fun _ => ⟨⟨[], [], rfl, by simp⟩, .inl (by decide +kernel)⟩, fun dl h => absurd hhost h.2.1, fun dl h => absurd hhost h.2.1⟩,
        (applies_compared (v := true) (by decide +kernel) exIntranet_web (by decide +kernel) (by decide +kernel) []).2 rfl⟩, ?_⟩
      · rintro ⟨x, hx, hxe, -⟩
        rw [List.mem_singleton.1 hx] at hxe
        cases hxe
    exact this ▸ h1
  · obtain ⟨b, h1, h2⟩ := answers_iff hl false [] hq'
    have : b = false := by
      rw [← Bool.not_eq_true, h2]
      rintro ⟨⟨x, hx, -, hc, -⟩, -⟩
      rw [List.mem_singleton.1 hx] at hc
      exact absurd (hc.host hhost).2 (by decide +kernel)
    exact this ▸ h1

end AdBlock
