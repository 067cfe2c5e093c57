import Verif.SpecKept
import Verif.Props.FindRequestLaws
import Verif.Props.Announced
/-
Lists put together and taken apart, and `findMatchingFilters` (C115).
-/
namespace AdBlock
open Spec

theorem comparable_subset {rs rs' : List RuleText} {q : Request} (h : Spec.Comparable rs q) (hs : ∀ r ∈ rs', r ∈ rs) : Spec.Comparable rs' q :=
  ⟨fun r hr => h.inBounds r (hs r hr)⟩

/-- A rule of one of two lists which counts in both together counts in this one. -/
theorem hostCounted_either {rs rs' : List RuleText} {q : Request} {r : RuleText} (hr : r ∈ rs ++ rs') (h : HostCounted (rs ++ rs') q r) :
    (r ∈ rs ∧ HostCounted rs q r) ∨ (r ∈ rs' ∧ HostCounted rs' q r) := by
  by_cases hh : r.HostOnly
  · obtain ⟨⟨before, after, h1, h2⟩, h3⟩ := h hh
    rcases List.append_eq_append_iff.1 h1 with ⟨as, h4, h5⟩ | ⟨cs, h4, h5⟩
    · exact .inr ⟨by rw [h5]; simp, fun _ => ⟨⟨as, after, h5, fun x hx => h2 x (by rw [h4]; simp [hx])⟩, h3⟩⟩
    · cases cs with
      | nil =>
        rw [List.nil_append] at h5
        exact .inr ⟨by rw [← h5]; simp, fun _ => ⟨⟨[], after, by rw [← h5]; rfl, by simp⟩, h3⟩⟩
      | cons c cs =>
        rw [List.cons_append] at h5
        injection h5 with h5 _
        subst h5
        exact .inl ⟨by rw [h4]; simp, fun _ => ⟨⟨before, cs, h4, h2⟩, h3⟩⟩
  · exact (List.mem_append.1 hr).imp (fun h => ⟨h, fun h' => absurd h' hh⟩) fun h => ⟨h, fun h' => absurd h' hh⟩

/-- What counts and applies in a part of a list does so in the list, if no two rules are for the same host. -/
theorem one_applies {rs part : List RuleText} {q : Request} (h : OneRuleForHost rs q) (hq : Spec.Comparable rs q) (hs : ∀ r ∈ part, r ∈ rs)
    {tags : List Bytes} {r : RuleText} (hr : r ∈ part) :
    (HostCounted part q r ∧ r.AppliesTo tags q) ↔ (HostCounted rs q r ∧ r.AppliesTo tags q) := by
  refine and_congr_left fun ha => ?_
  rw [hostCounted_one h hq (hs r hr) ha,
    hostCounted_one (fun r hr r' hr' => h r (hs r hr) r' (hs r' hr')) (comparable_subset hq hs) hr ha]

/-- Whether a rule counts depends on the rules of its kind only … -/
theorem hostCounted_kind {rs : List RuleText} {q : Request} {r : RuleText} {p : RuleText → Bool} (hp : ∀ x, p x = true ↔ x.exception = r.exception) :
    HostCounted (rs.filter p) q r ↔ HostCounted rs q r := by
  rw [hostCounted_find, hostCounted_find]
  refine imp_congr_right fun _ => and_congr_left fun _ => ?_
  rw [List.find?_filter, find?_congr_mem (q := likeHost r) fun a _ => ?_]
  unfold likeHost
  cases hpa : p a with
  | true => simp
  | false =>
    have : ¬ a.exception = r.exception := fun h => by rw [(hp a).2 h] at hpa; cases hpa
    simp [this]

/-- … and it makes no difference to it which kind that is. -/
theorem hostCounted_asBlocking {es : List RuleText} {q : Request} {r : RuleText} (hex : ∀ x ∈ es, x.exception = true) (hr : r.exception = true) :
    HostCounted (es.map asBlocking) q (asBlocking r) ↔ HostCounted es q r := by
  have back : ∀ x ∈ es, asBlocking x = asBlocking r → x = r := fun x hx h => by
    have hx := hex x hx
    cases x; cases r
    simp only [asBlocking, RuleText.mk.injEq] at h hx hr ⊢
    simp_all
  constructor
  · intro h1 hh
    obtain ⟨⟨before, after, h4, h5⟩, h6⟩ := h1 hh
    obtain ⟨l1, l2, rfl, h7, h8⟩ := List.map_eq_append_iff.1 h4
    obtain ⟨x, l3, rfl, h9, -⟩ := List.map_eq_cons_iff.1 h8
    have := back x (by simp) h9
    subst this
    exact ⟨⟨l1, l3, rfl, fun y hy hc => h5 (asBlocking y) (h7 ▸ List.mem_map_of_mem hy) ⟨hc.1, rfl, hc.2.2⟩⟩, h6⟩
  · intro h1 hh
    obtain ⟨⟨before, after, h4, h5⟩, h6⟩ := h1 hh
    subst h4
    refine ⟨⟨before.map asBlocking, after.map asBlocking, by simp, fun x hx hc => ?_⟩, h6⟩
    obtain ⟨y, hy, rfl⟩ := List.mem_map.1 hx
    exact h5 y hy ⟨hc.1, (hex y (by simp [hy])).trans hr.symm, hc.2.2⟩

/-! ### Lists together (see C96) -/

/-- **C115**: two lists together block what each of them blocks, according to `findMatchingFilters`, whatever is in them; … -/
theorem C115_both {E : Env} {A B C : Bytes} {rs rs' : List RuleText} (hA : Lists E A rs) (hB : Lists E B rs') (hC : Lists E C (rs ++ rs'))
    {q : Request} {preserve : Bool} {tags : List Bytes} (hq : q.Web) (hs : Spec.Comparable (rs ++ rs') q)
    (ha : Finds E A preserve tags q true) (hb : Finds E B preserve tags q true) : Finds E C preserve tags q true := by
  obtain ⟨a, h1, h2⟩ := finds_iff hA preserve tags hq (comparable_subset hs fun _ h => List.mem_append_left _ h)
  obtain ⟨b, h3, h4⟩ := finds_iff hB preserve tags hq (comparable_subset hs fun _ h => List.mem_append_right _ h)
  obtain ⟨c, h5, h6⟩ := finds_iff hC preserve tags hq hs
  obtain ⟨⟨r, hr, he, hc, hap⟩, hno⟩ := h2.1 (finds_unique h1 ha)
  obtain ⟨-, hno'⟩ := h4.1 (finds_unique h3 hb)
  have : c = true := by
    rw [h6]
    refine ⟨⟨r, List.mem_append_left _ hr, he, hostCounted_more hc, hap⟩, fun ⟨x, hx, hxe, hxc, hxa⟩ => ?_⟩
    rcases hostCounted_either hx hxc with ⟨h7, h8⟩ | ⟨h7, h8⟩
    · exact hno ⟨x, h7, hxe, h8, hxa⟩
    · exact hno' ⟨x, h7, hxe, h8, hxa⟩
  exact this ▸ h5

/-- … they block nothing which neither of them blocks, unless different rules consist of the same host; … -/
theorem C115_neither_partial {E : Env} {A B C : Bytes} {rs rs' : List RuleText} (hA : Lists E A rs) (hB : Lists E B rs') (hC : Lists E C (rs ++ rs'))
    {q : Request} (hi : OneRuleForHost (rs ++ rs') q) {preserve : Bool} {tags : List Bytes} (hq : q.Web) (hs : Spec.Comparable (rs ++ rs') q)
    (ha : Finds E A preserve tags q false) (hb : Finds E B preserve tags q false) : Finds E C preserve tags q false := by
  obtain ⟨a, h1, h2⟩ := finds_iff hA preserve tags hq (comparable_subset hs fun _ h => List.mem_append_left _ h)
  obtain ⟨b, h3, h4⟩ := finds_iff hB preserve tags hq (comparable_subset hs fun _ h => List.mem_append_right _ h)
  obtain ⟨c, h5, h6⟩ := finds_iff hC preserve tags hq hs
  cases c with
  | false => exact h5
  | true =>
    exfalso
    obtain ⟨⟨r, hr, he, hc, hap⟩, hno⟩ := h6.1 rfl
    rcases hostCounted_either hr hc with ⟨h7, h8⟩ | ⟨h7, h8⟩
    · have : a = true := h2.2 ⟨⟨r, h7, he, h8, hap⟩, fun ⟨x, hx, hxe, hxc⟩ =>
        hno ⟨x, List.mem_append_left _ hx, hxe, (one_applies hi hs (fun _ h => List.mem_append_left _ h) hx).1 hxc⟩⟩
      exact absurd (finds_unique ha (this ▸ h1)) (by simp)
    · have : b = true := h4.2 ⟨⟨r, h7, he, h8, hap⟩, fun ⟨x, hx, hxe, hxc⟩ =>
        hno ⟨x, List.mem_append_right _ hx, hxe, (one_applies hi hs (fun _ h => List.mem_append_right _ h) hx).1 hxc⟩⟩
      exact absurd (finds_unique hb (this ▸ h3)) (by simp)

/-- … and if they have no exceptions, they block exactly what one of them blocks, under the same condition. -/
theorem C115_either_partial {E : Env} {A B C : Bytes} {rs rs' : List RuleText} (hA : Lists E A rs) (hB : Lists E B rs') (hC : Lists E C (rs ++ rs'))
    {q : Request} (hi : OneRuleForHost (rs ++ rs') q) (hno : ∀ r ∈ rs ++ rs', r.exception = false) {preserve : Bool} {tags : List Bytes}
    (hq : q.Web) (hs : Spec.Comparable (rs ++ rs') q) :
    Finds E C preserve tags q true ↔ Finds E A preserve tags q true ∨ Finds E B preserve tags q true := by
  obtain ⟨a, h1, h2⟩ := finds_iff hA preserve tags hq (comparable_subset hs fun _ h => List.mem_append_left _ h)
  obtain ⟨b, h3, h4⟩ := finds_iff hB preserve tags hq (comparable_subset hs fun _ h => List.mem_append_right _ h)
  obtain ⟨c, h5, h6⟩ := finds_iff hC preserve tags hq hs
  have hnone : ∀ x ∈ rs ++ rs', x.exception = true → False := fun x hx h => by rw [hno x hx] at h; cases h
  constructor
  · intro h
    obtain ⟨⟨r, hr, he, hc, hap⟩, -⟩ := h6.1 (finds_unique h5 h)
    rcases hostCounted_either hr hc with ⟨h7, h8⟩ | ⟨h7, h8⟩
    · have : a = true := h2.2 ⟨⟨r, h7, he, h8, hap⟩, fun ⟨x, hx, hxe, _⟩ => hnone x (List.mem_append_left _ hx) hxe⟩
      exact .inl (this ▸ h1)
    · have : b = true := h4.2 ⟨⟨r, h7, he, h8, hap⟩, fun ⟨x, hx, hxe, _⟩ => hnone x (List.mem_append_right _ hx) hxe⟩
      exact .inr (this ▸ h3)
  · intro h
    have : c = true := by
      rw [h6]
      refine ⟨?_, fun ⟨x, hx, hxe, _⟩ => hnone x hx hxe⟩
      rcases h with h | h
      · obtain ⟨⟨r, hr, he, hc⟩, -⟩ := h2.1 (finds_unique h1 h)
        exact ⟨r, List.mem_append_left _ hr, he, (one_applies hi hs (fun _ h => List.mem_append_left _ h) hr).1 hc⟩
      · obtain ⟨⟨r, hr, he, hc⟩, -⟩ := h4.1 (finds_unique h3 h)
        exact ⟨r, List.mem_append_right _ hr, he, (one_applies hi hs (fun _ h => List.mem_append_right _ h) hr).1 hc⟩
    exact this ▸ h5

/-- A rule of one of several lists which counts in all of them together counts in one of them. -/
theorem hostCounted_several {parts : List (Bytes × List RuleText)} {q : Request} {r : RuleText} (hr : r ∈ parts.flatMap Prod.snd)
    (h : HostCounted (parts.flatMap Prod.snd) q r) : ∃ p ∈ parts, r ∈ p.2 ∧ HostCounted p.2 q r := by
  induction parts with
  | nil => cases hr
  | cons p parts ih =>
    rw [List.flatMap_cons] at hr h
    rcases hostCounted_either hr h with h1 | h1
    · exact ⟨p, by simp, h1⟩
    · obtain ⟨p', h2, h3⟩ := ih h1.1 h1.2
      exact ⟨p', List.mem_cons_of_mem _ h2, h3⟩

/-- **C115** for any number of lists: together they block what each of them blocks, … -/
theorem C115_all {E : Env} {parts : List (Bytes × List RuleText)} {C : Bytes} (hne : parts ≠ []) (hp : ∀ p ∈ parts, Lists E p.1 p.2)
    (hC : Lists E C (parts.flatMap Prod.snd)) {q : Request} {preserve : Bool} {tags : List Bytes} (hq : q.Web)
    (hs : Spec.Comparable (parts.flatMap Prod.snd) q) (h : ∀ p ∈ parts, Finds E p.1 preserve tags q true) : Finds E C preserve tags q true := by
  have hsub : ∀ p ∈ parts, ∀ r ∈ p.2, r ∈ parts.flatMap Prod.snd := fun p hm r hr => List.mem_flatMap.2 ⟨p, hm, hr⟩
  have hpart : ∀ p ∈ parts, (∃ r ∈ p.2, r.exception = false ∧ HostCounted p.2 q r ∧ r.AppliesTo tags q) ∧
      ¬ ∃ r ∈ p.2, r.exception = true ∧ HostCounted p.2 q r ∧ r.AppliesTo tags q := by
    intro p hm
    obtain ⟨b, h1, h2⟩ := finds_iff (hp p hm) preserve tags hq (comparable_subset hs (hsub p hm))
    exact h2.1 (finds_unique h1 (h p hm))
  obtain ⟨c, h5, h6⟩ := finds_iff hC preserve tags hq hs
  have : c = true := by
    rw [h6]
    constructor
    · cases parts with
      | nil => exact absurd rfl hne
      | cons p parts =>
        obtain ⟨⟨r, hr, he, hc, ha⟩, -⟩ := hpart p (by simp)
        exact ⟨r, hsub p (by simp) r hr, he, by rw [List.flatMap_cons]; exact hostCounted_more hc, ha⟩
    · rintro ⟨x, hx, hxe, hxc, hxa⟩
      obtain ⟨p, hm, h7, h8⟩ := hostCounted_several hx hxc
      exact (hpart p hm).2 ⟨x, h7, hxe, h8, hxa⟩
  exact this ▸ h5

/-- … nothing that none of them blocks, and, if they have no exceptions, exactly what one of them blocks, unless different rules consist of the same
host. -/
theorem C115_several_partial {E : Env} {parts : List (Bytes × List RuleText)} {C : Bytes} (hp : ∀ p ∈ parts, Lists E p.1 p.2)
    (hC : Lists E C (parts.flatMap Prod.snd)) {q : Request} (hi : OneRuleForHost (parts.flatMap Prod.snd) q) (preserve : Bool)
    (tags : List Bytes) (hq : q.Web) (hs : Spec.Comparable (parts.flatMap Prod.snd) q) :
    ((∀ p ∈ parts, Finds E p.1 preserve tags q false) → Finds E C preserve tags q false) ∧
    ((∀ p ∈ parts, ∀ r ∈ p.2, r.exception = false) →
      (Finds E C preserve tags q true ↔ ∃ p ∈ parts, Finds E p.1 preserve tags q true)) := by
  have hsub : ∀ p ∈ parts, ∀ r ∈ p.2, r ∈ parts.flatMap Prod.snd := fun p hm r hr => List.mem_flatMap.2 ⟨p, hm, hr⟩
  have hthis : ∀ p ∈ parts, (Finds E p.1 preserve tags q true ↔
      (∃ r ∈ p.2, r.exception = false ∧ HostCounted p.2 q r ∧ r.AppliesTo tags q) ∧
      ¬ ∃ r ∈ p.2, r.exception = true ∧ HostCounted p.2 q r ∧ r.AppliesTo tags q) := by
    intro p hm
    obtain ⟨b, h1, h2⟩ := finds_iff (hp p hm) preserve tags hq (comparable_subset hs (hsub p hm))
    exact ⟨fun h => h2.1 (finds_unique h1 h), fun h => h2.2 h ▸ h1⟩
  obtain ⟨c, h5, h6⟩ := finds_iff hC preserve tags hq hs
  have back : c = true → ∃ p ∈ parts, Finds E p.1 preserve tags q true := fun hc => by
    obtain ⟨⟨r, hr, he, hc, ha⟩, hno⟩ := h6.1 hc
    obtain ⟨p, hm, h7, h8⟩ := hostCounted_several hr hc
    exact ⟨p, hm, (hthis p hm).2 ⟨⟨r, h7, he, h8, ha⟩, fun ⟨x, hx, hxe, hxc⟩ =>
      hno ⟨x, hsub p hm x hx, hxe, (one_applies hi hs (hsub p hm) hx).1 hxc⟩⟩⟩
  refine ⟨fun hall => ?_, fun hno => ⟨fun h => back (finds_unique h5 h), ?_⟩⟩
  · cases c with
    | false => exact h5
    | true =>
      obtain ⟨p, hm, h⟩ := back rfl
      exact absurd (finds_unique h (hall p hm)) (by simp)
  · rintro ⟨p, hm, h⟩
    obtain ⟨⟨r, hr, he, hc⟩, -⟩ := (hthis p hm).1 h
    have : c = true := h6.2 ⟨⟨r, hsub p hm r hr, he, (one_applies hi hs (hsub p hm) hr).1 hc⟩, fun ⟨x, hx, hxe, _⟩ => by
      obtain ⟨p', hm', hx'⟩ := List.mem_flatMap.1 hx
      rw [hno p' hm' x hx'] at hxe
      cases hxe⟩
    exact this ▸ h5

/-! ### Rules one by one (see C97), and blocking rules and exceptions (see C103) -/

/-- **C115**: a list blocks a request exactly if one of its rules alone does, and no exception alone would without its `@@`, unless different rules
consist of the same host. -/
theorem C115_one_by_one_partial {E : Env} {A : Bytes} {rs : List RuleText} (hA : Lists E A rs) {alone : RuleText → Bytes}
    (hr : ∀ r ∈ rs, Lists E (alone r) [asBlocking r]) {q : Request} (hi : OneRuleForHost rs q) (preserve : Bool) (tags : List Bytes)
    (hq : q.Web) (hs : Spec.Comparable rs q) : Finds E A preserve tags q true ↔
      (∃ r ∈ rs, r.exception = false ∧ Finds E (alone r) preserve tags q true) ∧
      ¬ ∃ r ∈ rs, r.exception = true ∧ Finds E (alone r) preserve tags q true := by
  obtain ⟨b, h1, h2⟩ := finds_iff hA preserve tags hq hs
  have key : ∀ r ∈ rs, (HostCounted rs q r ∧ r.AppliesTo tags q) ↔ Finds E (alone r) preserve tags q true := by
    intro r hm
    have hs' : Spec.Comparable [asBlocking r] q := ⟨fun x hx => by rw [List.mem_singleton.1 hx]; exact hs.inBounds r hm⟩
    have hi' : OneRuleForHost [asBlocking r] q := fun x hx y hy _ _ _ _ _ => (List.mem_singleton.1 hx).trans (List.mem_singleton.1 hy).symm
    obtain ⟨v, h3, h4⟩ := finds_iff (hr r hm) preserve tags hq hs'
    have h5 : v = true ↔ (HostCounted rs q r ∧ r.AppliesTo tags q) := by
      rw [h4]
      constructor
      · rintro ⟨⟨x, hx, -, hc, ha⟩, -⟩
        rw [List.mem_singleton.1 hx] at hc ha
        exact ⟨(hostCounted_one hi hs hm ha).2 ((hostCounted_one hi' hs' (List.mem_singleton.2 rfl) ha).1 hc), ha⟩
      · rintro ⟨hc, ha⟩
        refine ⟨⟨asBlocking r, by simp, rfl, ?_, ha⟩, ?_⟩
        · exact (hostCounted_one hi' hs' (List.mem_singleton.2 rfl) (tags := tags) ha).2 ((hostCounted_one hi hs hm ha).1 hc)
        · rintro ⟨x, hx, he, -⟩
          rw [List.mem_singleton.1 hx] at he
          cases he
    rw [← h5]
    exact ⟨fun h => h ▸ h3, fun h => finds_unique h3 h⟩
  have hsame : ∀ s, (∃ r ∈ rs, r.exception = s ∧ HostCounted rs q r ∧ r.AppliesTo tags q) ↔
      ∃ r ∈ rs, r.exception = s ∧ Finds E (alone r) preserve tags q true := fun s =>
    exists_congr fun r => and_congr_right fun hm => and_congr_right fun _ => key r hm
  rw [hsame, hsame] at h2
  rw [← h2]
  exact ⟨fun h => finds_unique h1 h, fun h => h ▸ h1⟩

/-- **C115**: a list blocks a request exactly if its blocking rules alone do, and its exceptions alone, without their `@@`, do not. -/
theorem C115_apart {E : Env} {A B C : Bytes} {rs : List RuleText} (hA : Lists E A rs) (hB : Lists E B (blockingOf rs))
    (hC : Lists E C ((exceptionsOf rs).map asBlocking)) (preserve : Bool) (tags : List Bytes) {q : Request} (hq : q.Web) (hs : Spec.Comparable rs q) :
    ∃ b e, Finds E B preserve tags q b ∧ Finds E C preserve tags q e ∧ Finds E A preserve tags q (b && !e) := by
  have hs' : Spec.Comparable ((exceptionsOf rs).map asBlocking) q := by
    refine ⟨fun x hx => ?_⟩
    obtain ⟨y, hy, rfl⟩ := List.mem_map.1 hx
    exact hs.inBounds y (List.mem_filter.1 hy).1
  obtain ⟨a, h1, h2⟩ := finds_iff hA preserve tags hq hs
  obtain ⟨b, h3, h4⟩ := finds_iff hB preserve tags hq (comparable_subset hs fun r hr => (List.mem_filter.1 hr).1)
  obtain ⟨e, h5, h6⟩ := finds_iff hC preserve tags hq hs'
  have hno : ∀ r ∈ blockingOf rs, r.exception = false := fun r hr => by simpa using (List.mem_filter.1 hr).2
  have hyes : ∀ r ∈ exceptionsOf rs, r.exception = true := fun r hr => (List.mem_filter.1 hr).2
  have hb : b = true ↔ ∃ r ∈ rs, r.exception = false ∧ HostCounted rs q r ∧ r.AppliesTo tags q := by
    rw [h4]
    constructor
    · rintro ⟨⟨r, hr, he, hc, ha⟩, -⟩
      exact ⟨r, (List.mem_filter.1 hr).1, he, (hostCounted_kind (kind_false r he)).1 hc, ha⟩
    · rintro ⟨r, hr, he, hc, ha⟩
      refine ⟨⟨r, List.mem_filter.2 ⟨hr, by simp [he]⟩, he, (hostCounted_kind (kind_false r he)).2 hc, ha⟩, ?_⟩
      rintro ⟨x, hx, hx', -⟩
      rw [hno x hx] at hx'
      cases hx'
  have he : e = true ↔ ∃ r ∈ rs, r.exception = true ∧ HostCounted rs q r ∧ r.AppliesTo tags q := by
    rw [h6]
    constructor
    · rintro ⟨⟨x, hx, -, hc, ha⟩, -⟩
      obtain ⟨r, hr, rfl⟩ := List.mem_map.1 hx
      have hr' := hyes r hr
      exact ⟨r, (List.mem_filter.1 hr).1, hr', (hostCounted_kind (kind_true r hr')).1 ((hostCounted_asBlocking hyes hr').1 hc), ha⟩
    · rintro ⟨r, hr, hr', hc, ha⟩
      refine ⟨⟨asBlocking r, List.mem_map_of_mem (List.mem_filter.2 ⟨hr, hr'⟩), rfl,
        (hostCounted_asBlocking hyes hr').2 ((hostCounted_kind (kind_true r hr')).2 hc), ha⟩, ?_⟩
      rintro ⟨x, hx, hx', -⟩
      obtain ⟨y, -, rfl⟩ := List.mem_map.1 hx
      cases hx'
  rw [← hb, ← he] at h2
  refine ⟨b, e, h3, h5, ?_⟩
  have : a = (b && !e) := by rw [Bool.eq_iff_iff, h2]; simp
  exact this ▸ h1

/-- **C115**: it makes no difference where the exceptions of a list are written among its blocking rules. -/
theorem C115_interleaving {E : Env} {A B : Bytes} {rs rs' : List RuleText} (hA : Lists E A rs) (hB : Lists E B rs') (hb : blockingOf rs' = blockingOf rs)
    (he : exceptionsOf rs' = exceptionsOf rs) (preserve preserve' : Bool) (tags : List Bytes) {q : Request} (hq : q.Web) (hs : Spec.Comparable rs q) :
    ∃ b, Finds E A preserve tags q b ∧ Finds E B preserve' tags q b := by
  have hmem : ∀ r, r ∈ rs' ↔ r ∈ rs := fun r => by
    have h1 : r ∈ blockingOf rs' ↔ r ∈ blockingOf rs := by rw [hb]
    have h2 : r ∈ exceptionsOf rs' ↔ r ∈ exceptionsOf rs := by rw [he]
    simp only [blockingOf, exceptionsOf, List.mem_filter] at h1 h2
    cases hk : r.exception <;> simp_all
  refine finds_same hA hB preserve preserve' hq hs (comparable_subset hs fun r hr => (hmem r).1 hr) fun s => ?_
  refine exists_congr fun r => ?_
  rw [hmem]
  refine and_congr_right fun hr => and_congr_right fun hs => and_congr_left fun _ => ?_
  cases hk : r.exception with
  | false =>
    rw [← hostCounted_kind (rs := rs) (kind_false r hk), ← hostCounted_kind (rs := rs') (kind_false r hk)]
    unfold blockingOf at hb
    rw [hb]
  | true =>
    rw [← hostCounted_kind (rs := rs) (kind_true r hk), ← hostCounted_kind (rs := rs') (kind_true r hk)]
    unfold exceptionsOf at he
    rw [he]

/-! ### Tags (see C101) -/

theorem finds_mono {E : Env} {A : Bytes} {rs : List RuleText} (hA : Lists E A rs) (preserve : Bool) {tags tags' : List Bytes} {q : Request}
    (hq : q.Web) (hs : Spec.Comparable rs q) (more : ∀ r ∈ rs, r.exception = false → r.AppliesTo tags q → r.AppliesTo tags' q)
    (less : ∀ r ∈ rs, r.exception = true → r.AppliesTo tags' q → r.AppliesTo tags q)
    (h : Finds E A preserve tags q true) : Finds E A preserve tags' q true := by
  obtain ⟨b, h1, h2⟩ := finds_iff hA preserve tags hq hs
  obtain ⟨b', h3, h4⟩ := finds_iff hA preserve tags' hq hs
  obtain ⟨⟨r, hr, he, hc, ha⟩, hno⟩ := h2.1 (finds_unique h1 h)
  have : b' = true := h4.2 ⟨⟨r, hr, he, hc, more r hr he ha⟩, fun ⟨e, hr, he, hc, ha⟩ => hno ⟨e, hr, he, hc, less e hr he ha⟩⟩
  exact this ▸ h3

/-- **C115**: if the exceptions have no tags, what is blocked with some tags is also blocked if more are enabled; … -/
theorem C115_more_tags {E : Env} {A : Bytes} {rs : List RuleText} (hA : Lists E A rs) (hu : ∀ r ∈ rs, r.exception = true → Untagged r) (preserve : Bool)
    {tags tags' : List Bytes} (hsub : ∀ t ∈ tags, t ∈ tags') {q : Request} (hq : q.Web) (hs : Spec.Comparable rs q)
    (h : Finds E A preserve tags q true) : Finds E A preserve tags' q true :=
  finds_mono hA preserve hq hs (fun _ _ _ ha => applies_tags hsub ha) (fun r hr he ha => applies_untagged (hu r hr he) ha) h

/-- … if the blocking rules have none, what is blocked with some tags is also blocked if fewer are enabled; … -/
theorem C115_fewer_tags {E : Env} {A : Bytes} {rs : List RuleText} (hA : Lists E A rs) (hu : ∀ r ∈ rs, r.exception = false → Untagged r) (preserve : Bool)
    {tags tags' : List Bytes} (hsub : ∀ t ∈ tags, t ∈ tags') {q : Request} (hq : q.Web) (hs : Spec.Comparable rs q)
    (h : Finds E A preserve tags' q true) : Finds E A preserve tags q true :=
  finds_mono hA preserve hq hs (fun r hr he ha => applies_untagged (hu r hr he) ha) (fun _ _ _ ha => applies_tags hsub ha) h

/-- … and tags that no rule has make no difference. -/
theorem C115_other_tags {E : Env} {A : Bytes} {rs : List RuleText} (hA : Lists E A rs) (preserve preserve' : Bool) {tags tags' : List Bytes}
    (hu : ∀ r ∈ rs, ∀ t, r.value bs%"tag=" = some t → t ≠ [] → (t ∈ tags' ↔ t ∈ tags)) {q : Request} (hq : q.Web) (hs : Spec.Comparable rs q) :
    ∃ b, Finds E A preserve tags q b ∧ Finds E A preserve' tags' q b := by
  obtain ⟨b, h1, h2⟩ := finds_iff hA preserve tags hq hs
  obtain ⟨b', h3, h4⟩ := finds_iff hA preserve' tags' hq hs
  have key : ∀ s, (∃ r ∈ rs, r.exception = s ∧ HostCounted rs q r ∧ r.AppliesTo tags' q) ↔
      ∃ r ∈ rs, r.exception = s ∧ HostCounted rs q r ∧ r.AppliesTo tags q := fun s => by
    refine exists_congr fun r => and_congr_right fun hr => and_congr_right fun _ => and_congr_right fun _ => ?_
    have : r.TagEnabled tags' ↔ r.TagEnabled tags := by
      unfold RuleText.TagEnabled
      refine forall_congr' fun t => imp_congr_right fun ht => ?_
      by_cases h0 : t = []
      · simp [h0]
      · rw [hu r hr t ht h0]
    unfold RuleText.AppliesTo
    rw [this]
  rw [key, key] at h4
  have : b = b' := by rw [Bool.eq_iff_iff, h2, h4]
  exact ⟨b, h1, this ▸ h3⟩

/-! ### Rules covered by others (see C85 and C87) -/

theorem kept_counted {rs : List RuleText} {r : RuleText} (h : Kept rs r) (q : Request) : HostCounted rs q r :=
  fun hh => ⟨(h hh).2, .inr (h hh).1⟩

/-- **C115**: a rule that is covered by another of the list may be left out, unless one of the two consists of a host and the defect in dealing with
several such rules is to do with it. -/
theorem C115_covered_partial {E : Env} {A B : Bytes} {before after : List RuleText} {r₀ r : RuleText} (hA : Lists E A (before ++ after))
    (hB : Lists E B (before ++ r :: after)) (h₀ : r₀ ∈ before ++ after) (hcov : Covering r₀ r) (hrel : Kept (before ++ after) r₀)
    (hm : r.HostOnly → ∀ y ∈ after, ¬ (y.HostOnly ∧ y.exception = r.exception ∧ y.hostPart = r.hostPart)) (preserve preserve' : Bool)
    (tags : List Bytes) {q : Request} (hq : q.Web) (hs : Spec.Comparable (before ++ r :: after) q) :
    ∃ b, Finds E A preserve tags q b ∧ Finds E B preserve' tags q b := by
  have hsub : ∀ x ∈ before ++ after, x ∈ before ++ r :: after := by
    intro x hx
    simp only [List.mem_append, List.mem_cons] at hx ⊢
    rcases hx with hx | hx <;> simp [hx]
  have h1 : HostCounted (before ++ after) q r₀ := kept_counted hrel q
  have h2 : HostCounted (before ++ r :: after) q r₀ := by
    by_cases hne : r₀ = r
    · subst hne
      rw [hostCounted_find] at h1 ⊢
      refine fun hh => ⟨?_, (h1 hh).2⟩
      have h3 := (h1 hh).1
      rw [List.find?_append] at h3 ⊢
      rw [List.find?_cons, show likeHost r₀ r₀ = true by simp [likeHost, hh]]
      cases hb : before.find? (likeHost r₀) with
      | none => rfl
      | some y => rw [hb] at h3; exact h3
    · exact (hostCounted_insert hne hm).2 h1
  refine finds_same hA hB preserve preserve' hq (comparable_subset hs hsub) hs fun s => ⟨?_, ?_⟩
  · rintro ⟨x, hx, he, hc, ha⟩
    by_cases hx' : x = r
    · subst hx'
      exact ⟨r₀, hsub r₀ h₀, hcov.kind.trans he, h2, covering_applies hcov ha⟩
    · exact ⟨x, hsub x hx, he, (hostCounted_insert hx' hm).2 hc, ha⟩
  · rintro ⟨x, hx, he, hc, ha⟩
    by_cases hx' : x = r
    · subst hx'
      exact ⟨r₀, h₀, hcov.kind.trans he, h1, covering_applies hcov ha⟩
    · refine ⟨x, ?_, he, (hostCounted_insert hx' hm).1 hc, ha⟩
      simp only [List.mem_append, List.mem_cons] at hx ⊢
      rcases hx with hx | hx | hx
      · exact .inl hx
      · exact absurd hx hx'
      · exact .inr hx

/-- **C115**: if the exceptions of a list are its blocking rules, in the same order, nothing is blocked (see C85). -/
theorem C115_repeated {E : Env} {A : Bytes} {rs : List RuleText} (hA : Lists E A rs)
    (h : rs.filter (fun r => r.exception) = (rs.filter fun r => !r.exception).map asException) (preserve : Bool) (tags : List Bytes)
    {q : Request} (hq : q.Web) (hs : Spec.Comparable rs q) : Finds E A preserve tags q false := by
  obtain ⟨b, h1, h2⟩ := finds_iff hA preserve tags hq hs
  cases b with
  | false => exact h1
  | true =>
    exfalso
    obtain ⟨⟨r, hr, he, hc, ha⟩, hno⟩ := h2.1 rfl
    have hback : ∀ x ∈ rs.filter (fun r => !r.exception), asBlocking (asException x) = x := fun x hx => by
      have : x.exception = false := by simpa using (List.mem_filter.1 hx).2
      cases x
      simp_all [asBlocking, asException]
    have hmem : r ∈ rs.filter (fun r => !r.exception) := List.mem_filter.2 ⟨hr, by simp [he]⟩
    have hcb : HostCounted (rs.filter fun r => !r.exception) q r := (hostCounted_kind fun x => by simp [he]).2 hc
    have hmap : ((rs.filter fun r => r.exception).map asBlocking) = rs.filter fun r => !r.exception := by
      rw [h, List.map_map]
      exact (List.map_congr_left hback).trans (List.map_id _)
    have hce : HostCounted rs q (asException r) := by
      refine (hostCounted_kind (p := fun r => r.exception) fun x => by simp [asException]).1
        ((hostCounted_asBlocking (fun x hx => by simpa using (List.mem_filter.1 hx).2) rfl).1 ?_)
      rw [hmap, hback r hmem]
      exact hcb
    have hin : asException r ∈ rs := by
      have : asException r ∈ rs.filter fun r => r.exception := by
        rw [h]
        exact List.mem_map.2 ⟨r, hmem, rfl⟩
      exact (List.mem_filter.1 this).1
    exact hno ⟨asException r, hin, rfl, hce, ha⟩

/-- **C115**: nothing is blocked if each blocking rule is covered by an exception, unless the same defect is to do with this. -/
theorem C115_undone_partial {E : Env} {A : Bytes} {rs : List RuleText} (hA : Lists E A rs)
    (h : ∀ r ∈ rs, r.exception = false → ∃ e ∈ rs, Covering e (asException r) ∧ Kept rs e) (preserve : Bool) (tags : List Bytes)
    {q : Request} (hq : q.Web) (hs : Spec.Comparable rs q) : Finds E A preserve tags q false := by
  obtain ⟨b, h1, h2⟩ := finds_iff hA preserve tags hq hs
  cases b with
  | false => exact h1
  | true =>
    exfalso
    obtain ⟨⟨r, hr, he, -, ha⟩, hno⟩ := h2.1 rfl
    obtain ⟨e, hm, hcov, hrel⟩ := h r hr he
    exact hno ⟨e, hm, hcov.kind, kept_counted hrel q, covering_applies hcov ha⟩

/-! ### examples, and what goes wrong otherwise -/

/-- **C115** fails for rules that consist of a host, of which only the first is kept: neither of two lists blocks the image, but together they do
(see C96). -/
theorem C115_neither_counterexample {E : Env} (hroll : ∀ url, E.fp.rolls url) :
    Finds E bs%"@@||ads.com^$script" false [] exAds false ∧ Finds E bs%"ads\n@@||ads.com^$image" false [] exAds false ∧
    Finds E bs%"@@||ads.com^$script\nads\n@@||ads.com^$image" false [] exAds true := by
  have hp1 : ∀ r ∈ [exNoScripts], plainRule r = true := by decide +kernel
  have hp2 : ∀ r ∈ [exAdsText, exNoImages], plainRule r = true := by decide +kernel
  have hp3 : ∀ r ∈ [exNoScripts, exAdsText, exNoImages], plainRule r = true := by decide +kernel
  obtain ⟨h1, h2, h3⟩ := C96_neither_counterexample hroll
  exact ⟨finds_of_answers hroll hp1 (lists_rules (plainRules_sound hp1) (by simp)) (by decide +kernel) exAds_web h1,
    finds_of_answers hroll hp2 (lists_rules (plainRules_sound hp2) (by simp)) (by decide +kernel) exAds_web h2,
    finds_of_answers hroll hp3 (lists_rules (plainRules_sound hp3) (by simp)) (by decide +kernel) exAds_web h3⟩

/-- **C115** fails for such rules one by one, too: the second alone blocks the image, both together do not (see C97). -/
theorem C115_host_counterexample {E : Env} (hroll : ∀ url, E.fp.rolls url) : Finds E bs%"||ads.com^$image" false [] exAds true ∧
    Finds E bs%"||ads.com^$script\n||ads.com^$image" false [] exAds false := by
  have hp1 : ∀ r ∈ [exImages], plainRule r = true := by decide +kernel
  have hp2 : ∀ r ∈ [exScripts, exImages], plainRule r = true := by decide +kernel
  obtain ⟨h1, h2⟩ := C97_host_counterexample hroll
  exact ⟨finds_of_answers hroll hp1 (lists_rules (plainRules_sound hp1) (by simp)) (by decide +kernel) exAds_web h1,
    finds_of_answers hroll hp2 (lists_rules (plainRules_sound hp2) (by simp)) (by decide +kernel) exAds_web h2⟩

/-- **C115** fails for a rule covered by one that is not kept (see C87). -/
theorem C115_covered_counterexample {E : Env} (hroll : ∀ url, E.fp.rolls url) : Finds E bs%"||ads.com^$script\n||ads.com^" false [] exAds false ∧
    Finds E bs%"||ads.com^$script\n||ads.com^\n||ads.com/" false [] exAds true := by
  have hp1 : ∀ r ∈ [exScripts, exAll], plainRule r = true := by decide +kernel
  have hp2 : ∀ r ∈ [exScripts, exAll, exRoot], plainRule r = true := by decide +kernel
  obtain ⟨h1, h2⟩ := C87_host_counterexample hroll
  exact ⟨finds_of_answers hroll hp1 (lists_rules (plainRules_sound hp1) (by simp)) (by decide +kernel) exAds_web h1,
    finds_of_answers hroll hp2 (lists_rules (plainRules_sound hp2) (by simp)) (by decide +kernel) exAds_web h2⟩

/-- **C115**, an example: two lists which together block the image, though not if `matches` is asked (C96). -/
example {E : Env} (hroll : ∀ url, E.fp.rolls url) :
    Finds E bs%"||ads.com^$script\n&b=$domain=~x.com\n||ads.com^$image\n&a=$domain=~y.com" false [] exAdsOnY true := by
  have hp1 : ∀ r ∈ [exScripts, exNotX], plainRule r = true := by decide +kernel
  have hp2 : ∀ r ∈ [exImages, exNotY], plainRule r = true := by decide +kernel
  have hp3 : ∀ r ∈ [exScripts, exNotX] ++ [exImages, exNotY], plainRule r = true := by decide +kernel
  obtain ⟨-, -, ha3, ha4⟩ := exAdsOnY_applies []
  have h1 : Lists E bs%"||ads.com^$script\n&b=$domain=~x.com" [exScripts, exNotX] := lists_rules (plainRules_sound hp1) (by simp)
  have h2 : Lists E bs%"||ads.com^$image\n&a=$domain=~y.com" [exImages, exNotY] := lists_rules (plainRules_sound hp2) (by simp)
  refine C115_both h1 h2 (lists_rules (plainRules_sound hp3) (by simp)) exAdsOnY_web (plainRules_askable (E := E) hroll hp3 exAdsOnY_web).safe ?_ ?_
  · obtain ⟨b, h3, h4⟩ := finds_iff h1 false [] exAdsOnY_web (plainRules_askable (E := E) hroll hp1 exAdsOnY_web).safe
    have : b = true := h4.2 ⟨⟨exNotX, by simp, rfl, fun hh => (nomatch hh.1), ha3⟩, fun ⟨r, hr, he, _⟩ => by
      simp only [List.mem_cons, List.not_mem_nil, or_false] at hr
      rcases hr with rfl | rfl <;> cases he⟩
    exact this ▸ h3
  · obtain ⟨b, h3, h4⟩ := finds_iff h2 false [] exAdsOnY_web (plainRules_askable (E := E) hroll hp2 exAdsOnY_web).safe
    have : b = true := h4.2 ⟨⟨exImages, by simp, rfl, kept_counted (fun _ => ⟨by decide +kernel, [], [exNotY], rfl, by simp⟩) _, ha4⟩,
      fun ⟨r, hr, he, _⟩ => by
        simp only [List.mem_cons, List.not_mem_nil, or_false] at hr
        rcases hr with rfl | rfl <;> cases he⟩
    exact this ▸ h3

theorem exLists_one (q : Request) : OneRuleForHost ([exBan, exNoBanner] ++ [exAnner]) q :=
  fun r hr _ _ h => absurd h (exLists_facts.2.1 r hr)

/-- **C115**, examples: the rules of a list one by one, … -/
example {E : Env} (hroll : ∀ url, E.fp.rolls url) : Finds E bs%"bann\n@@banners\nanner$script" false [] exBanner true := by
  obtain ⟨hp, -, -⟩ := exLists_facts
  have alone : ∀ r ∈ [exBan, exNoBanner] ++ [exAnner], plainRule (asBlocking r) = true := by decide +kernel
  have hl : ∀ r ∈ [exBan, exNoBanner] ++ [exAnner], Lists E (listText [(asBlocking r).line]) [asBlocking r] := fun r hr =>
    lists_rules (rs := [asBlocking r]) (plainRules_sound fun x hx => by rw [List.mem_singleton.1 hx]; exact alone r hr) (by simp)
  refine (C115_one_by_one_partial (rs := [exBan, exNoBanner] ++ [exAnner]) (lists_rules (plainRules_sound hp) (by simp))
    (alone := fun r => listText [(asBlocking r).line]) hl (exLists_one _) false [] exBanner_web (plainRules_askable (E := E) hroll hp exBanner_web).safe).2
    ⟨⟨exBan, by simp, rfl, ?_⟩, ?_⟩
  · exact finds_of_answers (rs := [asBlocking exBan]) hroll (by decide +kernel) (hl exBan (by simp)) (by decide +kernel) exBanner_web
      (answers_compared (v := true) hroll (by decide +kernel) rfl (.inl (by decide +kernel)) (by decide +kernel) (by decide +kernel) exBanner_web (by decide +kernel))
  · rintro ⟨r, hr, he, h⟩
    have : r = exNoBanner := by
      simp only [List.cons_append, List.nil_append, List.mem_cons, List.not_mem_nil, or_false] at hr
      rcases hr with rfl | rfl | rfl
      · cases he
      · rfl
      · cases he
    subst this
    exact absurd (finds_unique h (finds_of_answers (rs := [asBlocking exNoBanner]) hroll (by decide +kernel) (hl exNoBanner (by simp)) (by decide +kernel) exBanner_web
      (answers_compared (v := false) (r := asBlocking exNoBanner) hroll (by decide +kernel) rfl (.inl (by decide +kernel))
        (by decide +kernel) (by decide +kernel) exBanner_web (by decide +kernel)))) (by simp)

/-- … lists without exceptions together, … -/
example {E : Env} (hroll : ∀ url, E.fp.rolls url) (preserve : Bool) (tags : List Bytes) : Finds E bs%"bann\nanner$script" preserve tags exBanner true ↔
    Finds E bs%"bann" preserve tags exBanner true ∨ Finds E bs%"anner$script" preserve tags exBanner true := by
  have hp : ∀ r ∈ [exBan] ++ [exAnner], plainRule r = true := by decide +kernel
  refine C115_either_partial (rs := [exBan]) (rs' := [exAnner]) (lists_rules (plainRules_sound (by decide +kernel)) (by simp))
    (lists_rules (plainRules_sound (by decide +kernel)) (by simp)) (lists_rules (plainRules_sound hp) (by simp))
    (fun r hr _ _ h => absurd h (exLists_facts.2.1 r ?_)) (by decide) exBanner_web (plainRules_askable (E := E) hroll hp exBanner_web).safe
  simp only [List.cons_append, List.nil_append, List.mem_cons, List.not_mem_nil, or_false] at hr ⊢
  exact hr.imp_right .inr

/-- … of which neither blocks the request, … -/
example {E : Env} (hroll : ∀ url, E.fp.rolls url) (h1 : Finds E bs%"bann\n@@banners" false [] exAds false) (h2 : Finds E bs%"anner$script" false [] exAds false) :
    Finds E bs%"bann\n@@banners\nanner$script" false [] exAds false :=
  C115_neither_partial (rs := [exBan, exNoBanner]) (rs' := [exAnner]) (lists_rules (plainRules_sound (by decide +kernel)) (by simp))
    (lists_rules (plainRules_sound (by decide +kernel)) (by simp)) (lists_rules (plainRules_sound exLists_facts.1) (by simp)) (exLists_one _) exAds_web
    (plainRules_askable (E := E) hroll exLists_facts.1 exAds_web).safe h1 h2

/-- … any number of lists, … -/
example {E : Env} (hroll : ∀ url, E.fp.rolls url) (preserve : Bool) (tags : List Bytes) : Finds E bs%"bann\nanner$script\nban" preserve tags exBanner true ↔
    ∃ A ∈ [bs%"bann", bs%"anner$script", bs%"ban"], Finds E A preserve tags exBanner true := by
  have hp : ∀ r ∈ [exBan, exAnner, { text := bs%"ban" }], plainRule r = true := by decide +kernel
  have hh : ∀ r ∈ [exBan, exAnner, { text := bs%"ban" }], ¬ r.HostOnly := by decide +kernel
  have h := (C115_several_partial (E := E) (parts := [(bs%"bann", [exBan]), (bs%"anner$script", [exAnner]), (bs%"ban", [{ text := bs%"ban" }])])
    (C := bs%"bann\nanner$script\nban") (fun p hm => ?_) (lists_rules (rs := [exBan, exAnner, { text := bs%"ban" }]) (plainRules_sound hp) (by simp))
    (fun r hr _ _ h => absurd h (hh r hr)) preserve tags exBanner_web (plainRules_askable (E := E) hroll hp exBanner_web).safe).2 (by decide +kernel)
  · rw [h]
    simp
  · simp only [List.mem_cons, List.not_mem_nil, or_false] at hm
    rcases hm with rfl | rfl | rfl
    · exact lists_rules (rs := [exBan]) (plainRules_sound (by decide +kernel)) (by simp)
    · exact lists_rules (rs := [exAnner]) (plainRules_sound (by decide +kernel)) (by simp)
    · exact lists_rules (rs := [{ text := bs%"ban" }]) (plainRules_sound (by decide +kernel)) (by simp)

/-- … blocking rules and exceptions apart and in another order, … -/
example {E : Env} (hroll : ∀ url, E.fp.rolls url) :
    (∃ b e, Finds E bs%"bann\nanner$script" false [] exBanner b ∧ Finds E bs%"banners" false [] exBanner e ∧
      Finds E bs%"bann\n@@banners\nanner$script" false [] exBanner (b && !e)) ∧
    ∃ b, Finds E bs%"bann\n@@banners\nanner$script" false [] exBanner b ∧ Finds E bs%"@@banners\nbann\nanner$script" false [] exBanner b := by
  have hA : Lists E bs%"bann\n@@banners\nanner$script" ([exBan, exNoBanner] ++ [exAnner]) := lists_rules (plainRules_sound exLists_facts.1) (by simp)
  have hs := (plainRules_askable (E := E) hroll exLists_facts.1 exBanner_web).safe
  have hB : Lists E bs%"bann\nanner$script" [exBan, exAnner] := lists_rules (rs := [exBan, exAnner]) (plainRules_sound (by decide +kernel)) (by simp)
  have hC : Lists E bs%"banners" [asBlocking exNoBanner] := lists_rules (rs := [asBlocking exNoBanner]) (plainRules_sound (by decide +kernel)) (by simp)
  have hD : Lists E bs%"@@banners\nbann\nanner$script" [exNoBanner, exBan, exAnner] := lists_rules (rs := [exNoBanner, exBan, exAnner]) (plainRules_sound (by decide +kernel)) (by simp)
  exact ⟨C115_apart hA hB hC false [] exBanner_web hs, C115_interleaving hA hD rfl rfl false false [] exBanner_web hs⟩

/-- … tags, … -/
example {E : Env} (hroll : ∀ url, E.fp.rolls url) (h : Finds E bs%"banner$tag=social" false [bs%"social"] exBanner true) :
    Finds E bs%"banner$tag=social" false [bs%"social", bs%"news"] exBanner true ∧
    (∃ b, Finds E bs%"banner$tag=social" false [] exBanner b ∧ Finds E bs%"banner$tag=social" false [bs%"news"] exBanner b) ∧
    (Finds E bs%"bann" false [bs%"news"] exBanner true → Finds E bs%"bann" false [] exBanner true) := by
  let r : RuleText := { text := bs%"banner", options := some bs%"tag=social" }
  have hp : ∀ x ∈ [r], plainRule x = true := by decide +kernel
  have hp' : ∀ x ∈ [exBan], plainRule x = true := by decide +kernel
  have hl : Lists E bs%"banner$tag=social" [r] := lists_rules (plainRules_sound hp) (by simp)
  have hs := (plainRules_askable (E := E) hroll hp exBanner_web).safe
  refine ⟨C115_more_tags hl (fun x hx he => ?_) false (by simp) exBanner_web hs h, C115_other_tags hl false false (fun x hx t ht _ => ?_) exBanner_web hs,
    C115_fewer_tags (rs := [exBan]) (lists_rules (plainRules_sound hp') (by simp)) (fun x hx _ t ht => ?_) false (by simp) exBanner_web
      (plainRules_askable (E := E) hroll hp' exBanner_web).safe⟩
  · rw [List.mem_singleton.1 hx] at he; cases he
  · rw [List.mem_singleton.1 hx, show r.value bs%"tag=" = some bs%"social" from by decide +kernel] at ht
    cases ht
    decide
  · rw [List.mem_singleton.1 hx, show exBan.value bs%"tag=" = none from by decide +kernel] at ht
    cases ht

/-- … and rules covered by others. -/
example {E : Env} (hroll : ∀ url, E.fp.rolls url) : (∃ b, Finds E bs%"||ads.com^\n-banner" false [] exAds b ∧
    Finds E bs%"||ads.com^\n||ads.com/\n-banner" false [] exAds b) ∧ Finds E bs%"||ads.com/\n@@||ads.com^" false [] exAds false := by
  have hp : ∀ r ∈ [exRoot, asException exAll], plainRule r = true := by decide +kernel
  refine ⟨C115_covered_partial (before := [exAll]) (after := [{ text := bs%"-banner" }]) (r := exRoot)
    (lists_rules (plainRules_sound (by decide +kernel)) (by simp)) (lists_rules (plainRules_sound (by decide +kernel)) (by simp))
    List.mem_cons_self exAll_covers (fun _ => ⟨by decide +kernel, [], _, rfl, by simp⟩) (fun h => absurd h (by decide +kernel))
    false false [] exAds_web (plainRules_askable (E := E) hroll (by decide +kernel) exAds_web).safe,
    C115_undone_partial (lists_rules (plainRules_sound hp) (by simp)) (fun r hr he => ⟨asException exAll, by simp, ?_, fun _ => ⟨by decide +kernel,
      [exRoot], [], rfl, ?_⟩⟩) false [] exAds_web (plainRules_askable (E := E) hroll hp exAds_web).safe⟩
  · simp only [List.mem_cons, List.not_mem_nil, or_false] at hr
    rcases hr with rfl | rfl
    · exact ⟨rfl, exAll_covers.text, exAll_covers.bars, exAll_covers.host, exAll_covers.options⟩
    · cases he
  · intro r hr
    rw [List.mem_singleton.1 hr]
    exact fun h => absurd h.2.1 (by decide)

/-- Two rules, each repeated as an exception. -/
example {E : Env} (hroll : ∀ url, E.fp.rolls url) :
    Finds E bs%"||ads.com^$image\n@@||ads.com^$image\n-banner\n@@-banner" false [] exAds false := by
  have hp : ∀ r ∈ [{ anchor := .host, text := bs%"ads.com^", options := some bs%"image" },
      { exception := true, anchor := .host, text := bs%"ads.com^", options := some bs%"image" }, { text := bs%"-banner" },
      ({ exception := true, text := bs%"-banner" } : RuleText)], plainRule r = true := by decide +kernel
  exact C115_repeated (lists_rules (plainRules_sound hp) (by simp)) rfl false [] exAds_web (plainRules_askable (E := E) hroll hp exAds_web).safe

end AdBlock
