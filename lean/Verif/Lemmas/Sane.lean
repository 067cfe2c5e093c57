import Verif.Lemmas.Reread
import Verif.Lemmas.Reload
/-
What holds of a client throughout a session, also if its rules are replaced by what is read back of them.
-/
namespace AdBlock
open Spec

theorem sane_comparable {E : Env} {c : Client E} (h : Sane c) : Comparable c := by
  have hsz := h.sized
  refine ⟨fun id f hf => (h.rules id f hf).text, fun s hs => ⟨?_, fun i _ f hf => (h.hosts false s hs i f hf).text⟩,
    fun s hs => ⟨?_, fun i _ f hf => (h.hosts true s hs i f hf).text⟩, fun d s hs => ?_⟩
  · have := hsz.hostSet
    simp [Client.startBuild, hs] at this
    exact this.1
  · have := hsz.hostExceptionSet
    simp [Client.startBuild, hs] at this
    exact this.1
  · have := hsz.domSets d
    simp [Client.startBuild, hs] at this
    exact this.1

/-- a change of what does not concern the rules -/
theorem sane_of {E : Env} {c d : Client E} (h : Sane c) (h1 : d.lists = c.lists) (h2 : d.startBuild = c.startBuild)
    (h3 : ∀ s, d.hs s = c.hs s) (h4 : d.bloom = c.bloom) (h5 : d.exceptionBloom = c.exceptionBloom) : Sane d :=
  ⟨by rw [h1]; exact h.rules, fun s t ht => h.hosts s t (by rw [← h3]; exact ht), by rw [h2]; exact h.sized,
    by rw [h1, h4, h5]; simp only [h3]; exact h.ready⟩

theorem mem_add {T : Type} {s : HSet T} {eq : T → T → Bool} {hash : T → Nat} {x y : T} {i : Nat}
    (h : y ∈ (s.add eq hash x).bucket i) : y ∈ s.bucket i ∨ y = x := by
  unfold HSet.add at h
  dsimp only at h
  repeat' split at h
  all_goals first | exact .inl h | skip
  rcases List.mem_append.1 h with h | h
  · exact .inl h
  · exact .inr (by simpa using h)

theorem fill_hosts {E : Env} {pr : Bool} {ls : List Bytes} (h0 : ∀ l ∈ ls, 0 ∉ l) {b b' : Build E}
    (hb : ∀ s i, ∀ f ∈ (b.hs s).bucket i, HostEntry f) (h : fill E pr (nul ls) b = .ok b') :
    ∀ s i, ∀ f ∈ (b'.hs s).bucket i, HostEntry f := by
  induction ls generalizing b with
  | nil => cases h; exact hb
  | cons l ls ih =>
    simp only [nul, List.map_cons, AdBlock.fill] at ih h
    obtain ⟨b1, h1, h⟩ := Res.bind_eq_ok.1 h
    refine ih (fun l hl => h0 l (by simp [hl])) ?_ h
    unfold fillLine at h1
    obtain ⟨⟨f, e⟩, hf, h1⟩ := Res.bind_eq_ok.1 h1
    obtain ⟨hp, _, he⟩ := parseFilter_facts (.inl rfl) (h0 l (by simp)) hf
    have hc := parsed_clean (.inl rfl) (h0 l (by simp)) hf
    unfold Build.enter at h1
    obtain ⟨b2, h2, h1⟩ := Res.bind_eq_ok.1 h1
    obtain ⟨cl, _, h1⟩ := Res.bind_eq_ok.1 h1
    have hs1 : b1.hs = b2.hs := by
      cases cl with
      | drop => cases h1; rfl
      | hostAnchored => cases h1; rfl
      | hostAnchoredException => cases h1; rfl
      | list id =>
        simp only [Build.store] at h1
        cases hd : id.domId with
        | none => rw [hd] at h1; cases h1; rfl
        | some d =>
          rw [hd] at h1
          obtain ⟨t, _, h1⟩ := Res.bind_eq_ok.1 h1
          cases h1; rfl
    rw [hs1]
    have he := he rfl
    cases he with
    | noText _ => cases h2; exact hb
    | other _ => cases h2; exact hb
    | noFp _ _ _ => cases h2; exact hb
    | fp w _ _ _ =>
      split at h2 <;> cases h2 <;> exact hb
    | host hd hh =>
      have hcopy := copy_bare hp hd
      have hent := hostEntry_of hp hc hd
      split at h2
      all_goals
        simp only [Build.apply, hcopy, Res.bind_ok] at h2
        cases h2
        intro s i g hg
        cases s
      · exact hb false i g hg
      · rcases mem_add hg with hg | rfl
        · exact hb true i g hg
        · exact hent
      · rcases mem_add hg with hg | rfl
        · exact hb false i g hg
        · exact hent
      · exact hb true i g hg

theorem reads_parsed {bad : List Bytes} {pr : Bool} {ls : List Bytes} {fs : List Filter} (h : Reads bad pr ls fs)
    (h0 : ∀ l ∈ ls, 0 ∉ l) : ∀ f ∈ fs, Parsed f := by
  induction h with
  | nil => simp
  | cons hp _ ih =>
    intro f hf
    rcases List.mem_cons.1 hf with rfl | hf
    · exact (parseFilter_facts (.inl rfl) (h0 _ (by simp)) hp).1
    · exact ih (fun l hl => h0 l (by simp [hl])) f hf

theorem sane_fresh {E : Env} : Sane (Client.fresh E) := history_sane .new

theorem sane_parse {E : Env} {c c' : Client E} (h : Sane c) {input : Bytes} {pr : Bool} (h0 : 0 ∉ input)
    (hp : c.parse input pr = .ok c') : Sane c' := by
  have hl : ∀ l ∈ lines input, 0 ∉ l := fun l hl h => h0 (mem_lines hl 0 h).1
  obtain ⟨fs, e1, -, e3, -, -⟩ := C20_arrays_filled hp
  obtain ⟨n, b, h1, h2, rfl⟩ := parse_ok_iff.1 hp
  have hhosts := fill_hosts hl (fun s i f hf => ?_) h2
  · refine ⟨fun id f hf => ?_, fun s t ht i f hf => ?_, ?_, .inl ⟨rfl, rfl⟩⟩
    · rw [e3] at hf
      rcases List.mem_append.1 hf with hf | hf
      · exact h.rules id f hf
      · have hf := (List.mem_filter.1 hf).1
        exact cleanRule_of (reads_parsed e1 hl f hf) (reads_clean e1 hl f hf)
    · refine hhosts s i f ?_
      cases s <;> · cases ht; exact hf
    · have := fill_sized h.sized h2
      exact ⟨this.1, this.2, this.3⟩
  · cases s with
    | false =>
      cases hs : c.hostSet with
      | none => simp [Client.startBuild, Build.hs, hs, HSet.new] at hf
      | some t =>
        refine h.hosts false t hs i f ?_
        simpa [Client.startBuild, Build.hs, hs] using hf
    | true =>
      cases hs : c.hostExceptionSet with
      | none => simp [Client.startBuild, Build.hs, hs, HSet.new] at hf
      | some t =>
        refine h.hosts true t hs i f ?_
        simpa [Client.startBuild, Build.hs, hs] using hf

theorem rereadTag_clean {f : Filter} (h : CleanStrings f) : 0 ∉ rereadTag f ∧ ch%',' ∉ rereadTag f := by
  unfold rereadTag
  split
  · refine ⟨fun hm => ?_, fun hm => ?_⟩
    · exact getD_clean h (List.mem_of_mem_drop ((List.takeWhile_prefix _).subset hm))
    · have := List.all_takeWhile (l := (f.domainList.getD []).drop 2) (p := fun x => x != ch%',')
      have := List.all_eq_true.1 this _ hm
      simp at this
  · exact h.tag

theorem rereadEntry_clean {f : Filter} (h : CleanStrings f) : CleanStrings (rereadEntry f) := by
  refine ⟨rereadTag_clean h, fun dl e => ?_, h.host⟩
  have : dl = rereadDomains f := by
    simp only [rereadEntry] at e
    split at e
    · cases e
    · cases e; rfl
  rw [this]
  exact rereadDomains_clean h

theorem sane_rereadClient {E : Env} {c : Client E} (h : Sane c) : Sane (rereadClient c) := by
  have hcmp := reread_comparable (sane_comparable h)
  refine ⟨fun id f hf => ?_, fun s t ht i f hf => ?_, ?_, ?_⟩
  · refine ⟨?_, hcmp.rules id f hf⟩
    obtain ⟨g, hg, rfl⟩ := List.mem_map.1 hf
    have := rereadEntry_clean (h.rules id g hg).toCleanStrings
    exact ⟨this.tag, this.domains, this.host⟩
  · have key : ∃ t', c.hs s = some t' ∧ t = mapSet rereadEntry t' := by
      cases s with
      | false =>
        obtain ⟨t', h1, h2⟩ := Option.map_eq_some_iff.1 (show c.hostSet.map (mapSet rereadEntry) = some t from ht)
        exact ⟨t', h1, h2.symm⟩
      | true =>
        obtain ⟨t', h1, h2⟩ := Option.map_eq_some_iff.1 (show c.hostExceptionSet.map (mapSet rereadEntry) = some t from ht)
        exact ⟨t', h1, h2.symm⟩
    obtain ⟨t', ht', rfl⟩ := key
    obtain ⟨g, hg, rfl⟩ := List.mem_map.1 hf
    have := h.hosts s t' ht' i g hg
    exact ⟨rereadEntry_clean this.strings, this.text⟩
  · have hsz := h.sized
    refine ⟨?_, ?_, hsz.domSets⟩
    · have := hsz.hostSet
      cases hs : c.hostSet <;> simpa [Client.startBuild, rereadClient, hs, mapSet] using this
    · have := hsz.hostExceptionSet
      cases hs : c.hostExceptionSet <;> simpa [Client.startBuild, rereadClient, hs, mapSet] using this
  · rcases h.ready with hr | ⟨h1, h2⟩
    · exact .inl hr
    · refine .inr ⟨fun id => by simp [rereadClient, h1], fun s => ?_⟩
      cases s with
      | false => show c.hostSet.map _ = none; rw [show c.hostSet = none from h2 false]; rfl
      | true => show c.hostExceptionSet.map _ = none; rw [show c.hostExceptionSet = none from h2 true]; rfl

/-- what a client does keeps it so -/
theorem sane_step {E : Env} {c c' : Client E} (h : Sane c) {o : Op} {a : Answer}
    (h0 : ∀ input pr, o = .parse input pr → 0 ∉ input) (hs : step c o = .ok (a, c')) : Sane c' := by
  cases o with
  | parse input pr =>
    simp only [step] at hs
    obtain ⟨c1, h1, hs⟩ := Res.map_eq_ok.1 hs
    cases hs
    exact sane_parse h (h0 _ _ rfl) h1
  | «matches» url ctx dom =>
    simp only [step] at hs
    obtain ⟨o, h1, hs⟩ := Res.map_eq_ok.1 hs
    cases hs
    exact sane_of h rfl rfl (fun s => by cases s <;> rfl) rfl rfl
  | find url ctx dom =>
    simp only [step] at hs
    obtain ⟨r, h1, hs⟩ := Res.map_eq_ok.1 hs
    cases hs
    exact h
  | addTag t =>
    cases hs
    unfold Client.addTag
    split
    · exact h
    · exact sane_of h rfl rfl (fun s => by cases s <;> rfl) rfl rfl
  | removeTag t => cases hs; exact sane_of h rfl rfl (fun s => by cases s <;> rfl) rfl rfl
  | tagExists t => cases hs; exact h
  | clear => cases hs; exact history_sane (.clear c)
  | enableBadFingerprintDetection =>
    cases hs
    unfold Client.enableBadFingerprintDetection
    split
    · exact h
    · exact sane_of h rfl rfl (fun s => by cases s <;> rfl) rfl rfl

end AdBlock
