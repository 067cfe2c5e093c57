import Verif.Props.Together
/-
Ways to write a rule for a host.
-/
namespace AdBlock
open Spec

theorem whole_text {r : RuleText} (h : WholeHost r) : r.anchor = .host ∧ r.rightBar = false ∧ (∀ c ∈ r.hostPart, ¬ IsSep c) ∧
    (r.text = r.hostPart ∨ r.text = r.hostPart ++ bs%"^") := by
  obtain ⟨ho, hh, -, -⟩ := h
  have hw : r.written = r.text := by unfold RuleText.written; rw [ho]
  refine ⟨hh.1, hh.2.1 ho, fun c hc => ?_, hw ▸ hh.2.2⟩
  have hp : r.hostPart = r.text.takeWhile fun c => decide (¬ IsSep c) := by unfold RuleText.hostPart; rw [ho]
  rw [hp] at hc
  simpa using (List.all_eq_true.1 (List.all_takeWhile (p := fun c => decide (¬ IsSep c))) c hc)

/-- A host, and a separator behind it, are found in every address with this host or a subdomain of it. -/
theorem host_placed {h : Bytes} {q : Request} (hq : q.Web) (hne : h ≠ []) (hs : ch%'*' ∉ h) (hsite : SameSite h q.host) :
    Placed h q.url ∧ Placed (h ++ bs%"^") q.url := by
  obtain ⟨pre, hpre⟩ : ∃ pre, q.host = pre ++ h := by
    rcases hsite with hsite | ⟨sub, hsite⟩
    · exact ⟨[], by rw [← hsite]; rfl⟩
    · exact ⟨sub ++ bs%".", by rw [hsite]; simp⟩
  have hurl : q.url = (q.scheme ++ bs%"://" ++ pre) ++ (h ++ q.rest) := by simp [Request.url, hpre]
  have hd : q.url.drop (q.scheme ++ bs%"://" ++ pre).length = h ++ q.rest := by rw [hurl, List.drop_left]
  have hl := congrArg List.length hurl
  have hpos : 0 < h.length := List.length_pos_iff.2 hne
  simp only [List.length_append, List.length_cons, List.length_nil] at hl
  constructor
  · rw [placed_single hs hne]
    refine ⟨?_, by omega, _, ?_, hd ▸ partAt_self_append _ _⟩
    · rintro rfl
      exact hq.host.2 ch%'^' (by rw [hpre]; simp) (by decide +kernel)
    · simp only [List.length_append, List.length_cons, List.length_nil]; omega
  · rw [placed_single (by simpa using hs) (by simp)]
    refine ⟨fun h1 => hne (by simpa using congrArg List.length h1), ?_, (q.scheme ++ bs%"://" ++ pre).length, ?_, ?_⟩
    · simp only [List.length_append, List.length_cons, List.length_nil]; omega
    · simp only [List.length_append, List.length_cons, List.length_nil]; omega
    · rw [hd]
      have : ∀ p : Bytes, PartAt (p ++ bs%"^") (p ++ q.rest) := by
        intro p
        induction p with
        | nil =>
          rcases hq.rest with hr | ⟨c, w, hr, hc⟩
          · rw [hr]; exact ⟨rfl, rfl⟩
          · rw [hr]; exact ⟨.inr ⟨rfl, hc⟩, trivial⟩
        | cons c p ih => exact ⟨.inl rfl, ih⟩
      exact this h

theorem whole_fits {r : RuleText} (h : WholeHost r) {q : Request} (hq : q.Web) : r.AddressFits q ↔ SameSite r.hostPart q.host := by
  obtain ⟨h1, h2, -, h4⟩ := whole_text h
  unfold RuleText.AddressFits
  rw [h1, h2]
  refine ⟨fun h => h.1, fun hs => ⟨hs, ?_⟩⟩
  have := host_placed hq h.2.2.1 h.2.2.2 hs
  rcases h4 with h4 | h4 <;> rw [h4]
  · exact this.1
  · exact this.2

theorem host_caretSafe {h : Bytes} (hs : ∀ c ∈ h, ¬ IsSep c) (u : Bytes) : CaretSafe h u ∧ CaretSafe (h ++ bs%"^") u := by
  have hc : ch%'^' ∉ h := fun hm => hs _ hm (by decide +kernel)
  constructor
  · rintro a b rfl
    exact absurd (by simp) hc
  · intro a b he _ hb
    exfalso
    obtain ⟨x, y, rfl⟩ : ∃ x y, b = x ++ [y] := ⟨b.dropLast, b.getLast hb, (List.dropLast_concat_getLast hb).symm⟩
    rw [show a ++ ch%'^' :: (x ++ [y]) = (a ++ ch%'^' :: x) ++ [y] from by simp] at he
    have := (List.append_inj' he rfl).1
    rw [this] at hc
    exact hc (by simp)

theorem whole_safe {r : RuleText} (h : WholeHost r) (q : Request) : ¬ r.ReadsPast q := by
  obtain ⟨h1, h2, h3, h4⟩ := whole_text h
  have hstar : ch%'*' ∉ r.text := by
    rcases h4 with h4 | h4 <;> rw [h4]
    · exact h.2.2.2
    · simpa using h.2.2.2
  rintro ⟨-, -, -, ⟨-, -, -, h5⟩ | ⟨-, h5, -⟩⟩
  · rw [splitOn_of_not_mem hstar] at h5
    rcases partsGoPast_caret h5 with ⟨p, hp, hc⟩ | ⟨-, hl⟩
    · rw [List.mem_singleton.1 hp] at hc
      have := host_caretSafe h3 q.url
      rcases h4 with h4 | h4 <;> rw [h4] at hc
      · exact hc this.1
      · exact hc this.2
    · have : r.text = [] := by simpa using hl
      rcases h4 with h4 | h4 <;> rw [h4] at this
      · exact h.2.2.1 this
      · simp at this
  · rw [h2] at h5; cases h5

theorem sameHost_alike {r r' : RuleText} (h : SameHost r r') (bad tags : List Bytes) {q : Request} (hq : q.Web) : RuleAlike bad tags q r r' := by
  obtain ⟨hrest, ⟨hw, hw'⟩, hhost⟩ := h
  obtain ⟨t, rfl⟩ : ∃ t, r' = { r with text := t } := ⟨r'.text, by rw [← hrest]⟩
  refine ⟨rfl, iff_of_true hw'.2.1 hw.2.1, fun _ => hhost, Iff.rfl, ?_, iff_of_false (whole_safe hw' q) (whole_safe hw q),
    fun dl h => absurd hw.2.1 h.2.1, fun dl h => absurd hw'.2.1 h.2.1⟩
  unfold RuleText.AppliesTo
  rw [whole_fits hw hq, whole_fits hw' hq, hhost]
  rfl

/-- **C98**: with or without the `^`, a rule that consists of a host is the same. -/
theorem C98_separator {E : Env} {A B : Bytes} {rs : List RuleText} {φ : RuleText → RuleText} (hA : Lists E A rs)
    (hB : Lists E B (rs.map φ)) (hφ : ∀ r ∈ rs, φ r = r ∨ SameHost r (φ r)) (preserve preserve' : Bool) (tags : List Bytes)
    {q : Request} (hq : Askable E rs q) : ∃ b, Answers E A preserve tags q b ∧ Answers E B preserve' tags q b := by
  refine answers_alike hA hB (fun r hr => ?_) preserve preserve' hq
  rcases hφ r hr with h | h
  · rw [h]
    exact alike_refl _ _ _ _
  · exact sameHost_alike h _ _ hq.web

/-! ### a star behind the separator -/

/-- the rule for the host of `r`, with `^*` behind it -/
def withStar (r : RuleText) : RuleText := { r with text := r.hostPart ++ bs%"^*" }

theorem withStar_facts {r : RuleText} (h : WholeHost r) {q : Request} (hq : q.Web) (tags : List Bytes) : ¬ (withStar r).HostOnly ∧
    ¬ (withStar r).ReadsPast q ∧ ((withStar r).AppliesTo tags q ↔ r.AppliesTo tags q) := by
  obtain ⟨h1, h2, h3, -⟩ := whole_text h
  have hhost : (withStar r).hostPart = r.hostPart := by
    unfold withStar
    unfold RuleText.hostPart
    simp only [h.1]
    have e : r.hostPart = r.text.takeWhile fun c => decide (¬ IsSep c) := by unfold RuleText.hostPart; rw [h.1]
    rw [← e, List.takeWhile_append_of_pos (fun c hc => by simpa using h3 c hc)]
    simp [show IsSep ch%'^' from by decide +kernel]
  have hsplit : splitOn ch%'*' (withStar r).text = [r.hostPart ++ bs%"^", []] := by
    show splitOn ch%'*' (r.hostPart ++ bs%"^*") = _
    rw [show r.hostPart ++ bs%"^*" = (r.hostPart ++ bs%"^") ++ ch%'*' :: [] from by simp, splitOn_append_sep (by simpa using h.2.2.2)]
    rfl
  have hno : ¬ (withStar r).HostOnly := by
    rintro ⟨-, -, hh⟩
    have hw : (withStar r).written = r.hostPart ++ bs%"^*" := by unfold RuleText.written withStar; simp only [h.1]
    rw [hw, hhost] at hh
    rcases hh with hh | hh
    · have := congrArg List.length hh; simp at this
    · have := congrArg List.length hh; simp at this
  refine ⟨hno, ?_, ?_⟩
  · rintro ⟨-, -, -, ⟨-, -, -, h5⟩ | ⟨h5, -⟩⟩
    · rw [hsplit, decide_eq_false hno] at h5
      rcases partsGoPast_caret h5 with ⟨p, hp, hc⟩ | ⟨h6, -⟩
      · simp only [List.mem_cons, List.not_mem_nil, or_false] at hp
        rcases hp with rfl | rfl
        · exact hc (host_caretSafe h3 _).2
        · exact hc fun a b he => by simp at he
      · cases h6
    · exact hno h5
  · unfold RuleText.AppliesTo
    refine and_congr Iff.rfl (and_congr Iff.rfl (and_congr Iff.rfl (and_congr Iff.rfl ?_)))
    rw [whole_fits h hq]
    unfold RuleText.AddressFits
    rw [show (withStar r).anchor = .host from h1, show (withStar r).rightBar = false from h2, hhost]
    refine ⟨fun h => h.1, fun hs => ⟨hs, ?_⟩⟩
    have hp := (host_placed hq h.2.2.1 h.2.2.2 hs).2
    unfold Placed at hp ⊢
    rw [splitOn_of_not_mem (by simpa using h.2.2.2)] at hp
    rw [hsplit]
    exact (sameParts_back (by simp) _).placed.2 hp

/-- **C98**, as far as it holds: a `*` behind the `^` makes no difference, if the host has a dot and no other rule of the kind consists of it, and
the rule has no domains or can be indexed. -/
theorem C98_star_partial {E : Env} {A B : Bytes} {before after : List RuleText} {r : RuleText} (hA : Lists E A (before ++ r :: after))
    (hB : Lists E B (before ++ withStar r :: after)) (hw : WholeHost r) (hdot : ch%'.' ∈ r.hostPart)
    (hone : ∀ x ∈ before ++ after, ¬ (x.HostOnly ∧ x.exception = r.exception ∧ x.hostPart = r.hostPart))
    (hd : r.value bs%"domain=" = none ∨ (withStar r).Indexable E.bad) (preserve preserve' : Bool) (tags : List Bytes) {q : Request}
    (hq : Askable E (before ++ r :: after) q) : ∃ b, Answers E A preserve tags q b ∧ Answers E B preserve' tags q b := by
  obtain ⟨hno, hsafe, happ⟩ := withStar_facts hw hq.web tags
  have hval : (withStar r).value bs%"domain=" = r.value bs%"domain=" := rfl
  have hby : ∀ dl, ¬ ByDomain E.bad (withStar r) dl := by
    rintro dl ⟨h1, -, h3⟩
    rcases hd with hd | hd
    · rw [hval, hd] at h1; cases h1
    · exact h3 hd
  have hby' : ∀ dl, ¬ ByDomain E.bad r dl := fun dl h => h.2.1 hw.2.1
  have hmem : ∀ {x y : RuleText}, x ∈ before ++ y :: after → x = y ∨ x ∈ before ++ after := by
    intro x y hx
    simp only [List.mem_append, List.mem_cons] at hx ⊢
    rcases hx with hx | rfl | hx
    · exact .inr (.inl hx)
    · exact .inl rfl
    · exact .inr (.inr hx)
  have hin : ∀ {x y : RuleText}, x ∈ before ++ after → x ∈ before ++ y :: after := by
    intro x y hx
    simp only [List.mem_append, List.mem_cons] at hx ⊢
    rcases hx with hx | hx
    · exact .inl hx
    · exact .inr (.inr hx)
  have hq' : Askable E (before ++ withStar r :: after) q := by
    refine ⟨hq.web, ⟨fun x hx => ?_⟩, fun hn x hx dl hdl => ?_, hq.rolls⟩
    · rcases hmem hx with rfl | hx
      · exact hsafe
      · exact hq.safe.inBounds x (hin hx)
    · rcases hmem hx with rfl | hx
      · exact absurd hdl (hby dl)
      · exact hq.empty hn x (hin hx) dl hdl
  have hm : ¬ Meddles E.bad r after q := by
    rintro (⟨-, x, hx, h⟩ | ⟨-, dl, h, -⟩)
    · exact hone x (List.mem_append_right _ hx) h
    · exact hby' dl h
  have hm' : ¬ Meddles E.bad (withStar r) after q := by
    rintro (⟨h, -⟩ | ⟨-, dl, h, -⟩)
    · exact hno h
    · exact hby dl h
  have key : ∀ x ∈ before ++ after, Counted E.bad (before ++ r :: after) q x ↔ Counted E.bad (before ++ withStar r :: after) q x := by
    intro x hx
    rw [counted_gate, counted_gate, gate_insert hm, gate_insert hm']
    refine and_congr_left fun _ => ?_
    by_cases hh : x.HostOnly
    · rw [hostCounted_insert (r := r) (fun h => hone x hx (by rw [h]; exact ⟨hw.2.1, rfl, rfl⟩)) (fun _ y hy => hone y (List.mem_append_right _ hy)),
        hostCounted_insert (r := withStar r) (fun h => hno (h ▸ hh)) (fun h => absurd h hno)]
    · exact iff_of_true (fun h => absurd h hh) fun h => absurd h hh
  have hc : Counted E.bad (before ++ r :: after) q r :=
    ⟨fun _ => ⟨⟨before, after, rfl, fun x hx => hone x (List.mem_append_left _ hx)⟩, .inr hdot⟩, fun dl h => absurd h (hby' dl),
      fun dl h => absurd h (hby' dl)⟩
  have hc' : Counted E.bad (before ++ withStar r :: after) q (withStar r) :=
    ⟨fun h => absurd h hno, fun dl h => absurd h (hby dl), fun dl h => absurd h (hby dl)⟩
  refine answers_same hA hB preserve preserve' hq hq' fun s => ?_
  constructor
  · rintro ⟨x, hx, he, hx', ha⟩
    rcases hmem hx with rfl | hx
    · exact ⟨withStar x, by simp, he, hc', happ.2 ha⟩
    · exact ⟨x, hin hx, he, (key x hx).1 hx', ha⟩
  · rintro ⟨x, hx, he, hx', ha⟩
    rcases hmem hx with rfl | hx
    · exact ⟨r, by simp, he, hc, happ.1 ha⟩
    · exact ⟨x, hin hx, he, (key x hx).2 hx', ha⟩

/-! ### counterexamples and examples -/

theorem okRules_sound {bad : List Bytes} {rs : List RuleText} (h : ∀ r ∈ rs, r.ok = true ∧ ∀ o ∈ r.entries, o.length ≤ 1024) : SoundList bad rs :=
  ⟨fun r hr => RuleText.wellFormed (h r hr).1, fun r hr => fits_of_entries (h r hr).2⟩

/-- Rules for whole hosts, with a star or without, can be compared with every request. -/
theorem wholeHosts_askable {E : Env} (hroll : ∀ url, E.fp.rolls url) {rs : List RuleText}
    (h : ∀ r ∈ rs, WholeHost r ∨ ∃ r0, WholeHost r0 ∧ r = withStar r0) (hd : ∀ r ∈ rs, r.value bs%"domain=" = none) {q : Request} (hq : q.Web) :
    Askable E rs q where
  web := hq
  rolls := hroll _
  empty _ r hr dl hdl := absurd ((hd r hr).symm.trans hdl.1) (by simp)
  safe := ⟨fun r hr => by
    rcases h r hr with h | ⟨r0, h, rfl⟩
    · exact whole_safe h q
    · exact (withStar_facts h hq []).2.1⟩

/-- the rule `||intranet^` -/
def exNoDot : RuleText := { anchor := .host, text := bs%"intranet^" }

theorem exNoDot_whole : WholeHost exNoDot := ⟨rfl, by decide +kernel⟩

/-- **C98** fails for hosts without a dot: with the star the rule holds for subdomains, without it does not. -/
theorem C98_dot_counterexample {E : Env} (hroll : ∀ url, E.fp.rolls url) :
    Answers E bs%"||intranet^" false [] { exIntranet with host := bs%"a.intranet" } false ∧
    Answers E bs%"||intranet^*" false [] { exIntranet with host := bs%"a.intranet" } true := by
  refine ⟨(C94_dot_counterexample hroll).2, ?_⟩
  have hweb : ({ exIntranet with host := bs%"a.intranet" } : Request).Web :=
    ⟨exIntranet_web.scheme, ⟨by decide +kernel, by decide +kernel⟩, exIntranet_web.rest, ⟨by decide +kernel, exIntranet_web.text.2⟩, exIntranet_web.type⟩
  have hf := withStar_facts exNoDot_whole hweb []
  obtain ⟨b, h1, h2⟩ := answers_iff (lists_rules (E := E) (rs := [withStar exNoDot]) (okRules_sound (by decide +kernel)) (by simp)) false []
    (wholeHosts_askable hroll (fun r hr => .inr ⟨exNoDot, exNoDot_whole, List.mem_singleton.1 hr⟩)
      (fun r hr => by rw [List.mem_singleton.1 hr]; decide +kernel) hweb)
  have : b = true := by
    rw [h2]
    have hd : (withStar exNoDot).value bs%"domain=" = none := by decide +kernel
    refine ⟨⟨withStar exNoDot, by simp, rfl, ⟨fun h => absurd h hf.1, fun dl h => absurd (hd.symm.trans h.1) (by simp),
      fun dl h => absurd (hd.symm.trans h.1) (by simp)⟩, hf.2.2.2 ((applies_compared (v := true) (by decide +kernel) hweb (by decide +kernel)
        (by decide +kernel) []).2 rfl)⟩, ?_⟩
    rintro ⟨r, hr, he, -⟩
    rw [List.mem_singleton.1 hr] at he
    cases he
  exact this ▸ h1

/-- **C98** fails if another rule consists of the host (C52): of these, only the first is kept. -/
theorem C98_first_counterexample {E : Env} (hroll : ∀ url, E.fp.rolls url) :
    Answers E bs%"||ads.com^$script\n||ads.com^$image" false [] exAds false ∧
    Answers E bs%"||ads.com^*$script\n||ads.com^$image" false [] exAds true := by
  refine ⟨(C84_host_counterexample hroll).2, ?_⟩
  have hs : WholeHost exScripts := ⟨rfl, by decide +kernel⟩
  have hi : WholeHost exImages := ⟨rfl, by decide +kernel⟩
  obtain ⟨b, h1, h2⟩ := answers_iff (lists_rules (E := E) (rs := [withStar exScripts, exImages]) (okRules_sound (by decide +kernel)) (by simp)) false []
    (wholeHosts_askable hroll (fun r hr => by
      simp only [List.mem_cons, List.not_mem_nil, or_false] at hr
      rcases hr with rfl | rfl
      · exact .inr ⟨_, hs, rfl⟩
      · exact .inl hi) (by decide +kernel) exAds_web)
  have : b = true := by
    rw [h2]
    have hd : exImages.value bs%"domain=" = none := by decide +kernel
    refine ⟨⟨exImages, by simp, rfl, ⟨fun _ => ⟨⟨[withStar exScripts], [], rfl, ?_⟩, .inr (by decide +kernel)⟩,
      fun dl h => absurd (hd.symm.trans h.1) (by simp), fun dl h => absurd (hd.symm.trans h.1) (by simp)⟩,
      (applies_compared (v := true) (by decide +kernel) exAds_web (by decide +kernel) (by decide +kernel) []).2 rfl⟩, ?_⟩
    · intro r hr h
      rw [List.mem_singleton.1 hr] at h
      exact (withStar_facts hs exAds_web []).1 h.1
    · rintro ⟨r, hr, he, -⟩
      simp only [List.mem_cons, List.not_mem_nil, or_false] at hr
      rcases hr with rfl | rfl <;> cases he
  exact this ▸ h1

/-- **C98** fails for a `*` without `^`: it is taken for part of the host. -/
theorem C98_host_counterexample {E : Env} (hroll : ∀ url, E.fp.rolls url) : Answers E bs%"||ads.com" false [] exAds true ∧
    Answers E bs%"||ads.com*" false [] exAds false := by
  refine ⟨answers_compared (v := true) (r := { anchor := .host, text := bs%"ads.com" }) hroll (by decide +kernel) rfl (.inr (by decide +kernel))
    (by decide +kernel) (by decide +kernel) exAds_web (by decide +kernel), ?_⟩
  let r : RuleText := { anchor := .host, text := bs%"ads.com*" }
  have hd : r.value bs%"domain=" = none := by decide +kernel
  have hno : ¬ SameSite r.hostPart exAds.host := by
    rintro (h | ⟨sub, h⟩)
    · exact absurd h (by decide +kernel)
    · have : ch%'*' ∈ exAds.host := by rw [h]; exact List.mem_append_right _ (by decide +kernel)
      exact absurd this (by decide +kernel)
  refine C82_literal_star_counterexample (lists_rules (E := E) (rs := [r]) (okRules_sound (by decide +kernel)) (by simp)) (fun x hx _ => ?_) false []
    ⟨exAds_web, ⟨fun x hx => ?_⟩, fun _ x hx dl hdl => ?_, hroll _⟩ (by decide +kernel)
  · rw [List.mem_singleton.1 hx]
    exact .inr ⟨rfl, rfl, by decide +kernel⟩
  · rw [List.mem_singleton.1 hx]
    exact inBounds_of (fun part hp => (host_caretSafe ((by decide +kernel : ∀ part ∈ splitOn ch%'*' r.text, ∀ c ∈ part, ¬ IsSep c) part hp) _).1) (fun _ h => absurd h hno) fun _ h => by cases h
  · rw [List.mem_singleton.1 hx] at hdl
    exact absurd (hd.symm.trans hdl.1) (by simp)

theorem exAll_whole : WholeHost exAll ∧ WholeHost { exAll with text := bs%"ads.com" } := by
  refine ⟨⟨rfl, by decide +kernel⟩, ⟨rfl, by decide +kernel⟩⟩

/-- **C98**, examples: the three ways to write a rule for `ads.com`. -/
example {E : Env} (hroll : ∀ url, E.fp.rolls url) : Answers E bs%"||ads.com^" false [] exAds true ∧ Answers E bs%"||ads.com" false [] exAds true ∧
    Answers E bs%"||ads.com^*" false [] exAds true := by
  have h0 : Answers E bs%"||ads.com^" false [] exAds true :=
    answers_compared (v := true) (r := exAll) hroll (by decide +kernel) rfl (.inr (by decide +kernel)) (by decide +kernel) (by decide +kernel) exAds_web
      (by decide +kernel)
  have hp : ∀ r ∈ [exAll], plainRule r = true := by decide +kernel
  have hp1 : ∀ r ∈ [({ exAll with text := bs%"ads.com" } : RuleText)], plainRule r = true := by decide +kernel
  have hA : Lists E bs%"||ads.com^" [exAll] := lists_rules (plainRules_sound hp) (by simp)
  have hq := plainRules_askable hroll hp exAds_web
  refine ⟨h0, ?_, ?_⟩
  · obtain ⟨b, h1, h2⟩ := C98_separator (φ := fun r => { r with text := bs%"ads.com" }) hA (lists_rules (plainRules_sound hp1) (by simp))
      (fun r hr => .inr (by rw [List.mem_singleton.1 hr]; exact ⟨rfl, exAll_whole, by decide +kernel⟩)) false false [] hq
    exact answers_unique h1 h0 ▸ h2
  · obtain ⟨b, h1, h2⟩ := C98_star_partial (before := []) (after := []) hA
      (lists_rules (rs := [withStar exAll]) (okRules_sound (by decide +kernel)) (by simp))
      exAll_whole.1 (by decide +kernel) (by simp) (.inl (by decide +kernel)) false false [] hq
    exact answers_unique h1 h0 ▸ h2

end AdBlock
