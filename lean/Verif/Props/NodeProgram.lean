import Verif.SpecNodeProgram
import Verif.Props.NodeArgs
import Verif.Props.Saved
import Verif.Props.FindOrder
import Verif.Props.Covered
/-
C75: programs in JavaScript with several clients and saved data.
-/
namespace AdBlock
open Spec

/-! ### what is read from data -/

theorem deserializeFilters_plain {n : Nat} {p q : Ptr} {fs : List Filter} (h : deserializeFilters n p = .ok (fs, q)) :
    ∀ f ∈ fs, f.ruleDefinition = none := by
  induction n generalizing p fs with
  | zero => cases h; simp
  | succ n ih =>
    obtain ⟨⟨f, p1⟩, e1, h⟩ := Res.bind_eq_ok.1 h
    obtain ⟨⟨gs, p2⟩, e2, h⟩ := Res.bind_eq_ok.1 h
    cases h
    intro g hg
    rcases List.mem_cons.1 hg with rfl | hg
    · obtain ⟨sz, -, e1⟩ := Res.bind_eq_ok.1 e1
      obtain ⟨x, -, e1⟩ := Res.bind_eq_ok.1 e1
      obtain ⟨y, -, e1⟩ := Res.bind_eq_ok.1 e1
      obtain ⟨z, -, e1⟩ := Res.bind_eq_ok.1 e1
      obtain ⟨w, -, e1⟩ := Res.bind_eq_ok.1 e1
      cases e1
      rfl
    · exact ih e2 g hg

theorem readLists_plain {ns : List Nat} {p q : Ptr} {ls : List (List Filter)} (h : readLists ns p = .ok (ls, q)) :
    ∀ l ∈ ls, ∀ f ∈ l, f.ruleDefinition = none := by
  induction ns generalizing p ls with
  | nil => cases h; simp
  | cons n ns ih =>
    obtain ⟨⟨l, p1⟩, e1, h⟩ := Res.bind_eq_ok.1 h
    obtain ⟨⟨ms, p2⟩, e2, h⟩ := Res.bind_eq_ok.1 h
    cases h
    intro m hm
    rcases List.mem_cons.1 hm with rfl | hm
    · exact deserializeFilters_plain e1
    · exact ih e2 m hm

/-- rules read from data do not have their original text -/
theorem deserialize_plain {E : Env} {c d : Client E} {buffer : Ptr} (h : c.deserialize buffer = .ok (some d)) :
    ∀ id, ∀ f ∈ d.lists id, f.ruleDefinition = none := by
  unfold Client.deserialize at h
  obtain ⟨sz, -, h⟩ := Res.bind_eq_ok.1 h
  obtain ⟨v, -, h⟩ := Res.bind_eq_ok.1 h
  obtain ⟨⟨ls, p⟩, e, h⟩ := Res.bind_eq_ok.1 h
  obtain ⟨b1, -, h⟩ := Res.bind_eq_ok.1 h
  obtain ⟨b2, -, h⟩ := Res.bind_eq_ok.1 h
  obtain ⟨h1, -, h⟩ := Res.bind_eq_ok.1 h
  cases h1 with
  | none => cases h
  | some h1 =>
    obtain ⟨h2, -, h⟩ := Res.bind_eq_ok.1 h
    cases h2 with
    | none => cases h
    | some h2 =>
      obtain ⟨ts, -, h⟩ := Res.bind_eq_ok.1 h
      cases ts with
      | none => cases h
      | some ts =>
        cases h
        intro id f hf
        have hp := readLists_plain e
        simp only [List.getD] at hf
        cases hl : ls[id.index]? with
        | none => rw [hl] at hf; cases hf
        | some l => rw [hl] at hf; exact hp l (List.mem_of_getElem? hl) f hf

/-! ### a client and what it has loaded -/

/-- the rules and tags in UTF-8 -/
def listBook (ls : List LoadedList) (tags : List Chars) : Book :=
  { rules := (ls.flatMap LoadedList.rules).map TextRule.rule, tags := tags.map utf8 }

/-- number of bytes of the lists, with terminators -/
def listBytes8 (ls : List LoadedList) : Nat := (ls.map fun l => (utf8 l.text).length + 1).sum

/-- The client has loaded these lists (and no data). -/
structure HasLoaded {E : Env} (c : Client E) (ls : List LoadedList) (tags : List Chars) (fs : List Filter) : Prop where
  order : InOrder c (listBook ls tags) fs
  origin : ∀ f ∈ fs, ∃ l ∈ ls, ((∃ r ∈ l.rules, f = r.rule.filter l.keep) ∨ (∀ s, ¬ Kind s f) ∨ Inert f) ∧
    (SavableList (utf8 l.text) (l.rules.map TextRule.rule) → LeftOut true true f ∨ Representable f)
  size : c.startBuild.size ≤ (Client.fresh E).startBuild.size + 90 * listBytes8 ls
  hosts : c.numHostAnchoredFilters ≤ listBytes8 ls
  hostExceptions : c.numHostAnchoredExceptionFilters ≤ listBytes8 ls

/-- The client is the one the book describes: it has loaded the lists, or it has loaded the data of a client that
had loaded them. -/
inductive Tracks {E : Env} (d : Client E) (b : ClientBook) : Prop
  | own {fs} (h : HasLoaded d b.lists b.tags fs) (hd : b.fromData = false)
  | data {c fs} (h : HasLoaded c b.lists b.tags fs) (same : SameNetwork c d) (tags : d.tags = c.tags)
      (plain : ∀ id, ∀ f ∈ d.lists id, f.ruleDefinition = none) (hd : b.fromData = true)

/-- The data were written by a client that had loaded the lists, or its data. -/
def Stored {E : Env} (bytes : Bytes) (ls : List LoadedList) : Prop :=
  ∃ (c : Client E) (tags : List Chars) (fs : List Filter), HasLoaded c ls tags fs ∧ bytes = c.bytes true true ∧
    StorableClient true true c ∧ (c.bytes true true).length < 2 ^ 31

theorem hasLoaded_empty {E : Env} {c : Client E} (h : History E c []) (hs : c.startBuild.size ≤ (Client.fresh E).startBuild.size)
    (h1 : c.numHostAnchoredFilters = 0) (h2 : c.numHostAnchoredExceptionFilters = 0) {tags : List Chars} (hn : c.tags.Nodup)
    (ht : ∀ t, t ∈ c.tags ↔ t ∈ tags.map utf8) : HasLoaded c [] tags [] :=
  ⟨⟨h, .nil, soundList_nil _, hn, ht⟩, by simp, by omega, by omega, by omega⟩

/-- loading a list -/
theorem hasLoaded_load {E : Env} (hE : FixedBlooms E) {c : Client E} {ls : List LoadedList} {tags : List Chars} {fs : List Filter}
    (h : HasLoaded c ls tags fs) {l : LoadedList} (h0 : '\x00' ∉ l.text)
    (hl : ListOf ((textLines l.text).map utf8) (l.rules.map TextRule.rule))
    (hs : SoundList E.bad ((ls.flatMap LoadedList.rules ++ l.rules).map TextRule.rule)) :
    ∃ c' gs, c.parse (utf8 l.text) l.keep = .ok c' ∧ HasLoaded c' (ls ++ [l]) tags (fs ++ gs) := by
  have h0 : 0 ∉ utf8 l.text := fun h => h0 (utf8_zero.1 h)
  rw [← utf8_lines] at hl
  have hz : ∀ x ∈ lines (utf8 l.text), 0 ∉ x := fun x hx h => h0 (mem_lines hx 0 h).1
  have hs' : SoundList E.bad (l.rules.map TextRule.rule) := soundList_subset hs fun r hr => by
    rw [List.map_append]; exact List.mem_append_right _ hr
  have hw := hs'.wellFormed
  obtain ⟨c', -, h1, -⟩ := load_inOrder h.order.hist h0 hl hs' l.keep
  obtain ⟨gs, g1, g2⟩ := loadedIn_lines E.bad hl hz hw l.keep
  have hkept := kept_lines E.bad hl hz hw l.keep g1
  obtain ⟨k1, k2, k3⟩ := parse_size hE h1
  have eb : listBytes8 (ls ++ [l]) = listBytes8 ls + ((utf8 l.text).length + 1) := by simp [listBytes8]
  have i1 := h.size
  have i2 := h.hosts
  have i3 := h.hostExceptions
  have er : (listBook (ls ++ [l]) tags).rules = (listBook ls tags).rules ++ l.rules.map TextRule.rule := by
    simp [listBook]
  refine ⟨c', gs, h1, ⟨.parse h.order.hist h0 h1 g1, ?_, ?_, ?_, ?_⟩, ?_, by omega, by omega, by omega⟩
  · rw [er]; exact h.order.loaded.append g2
  · rw [er]; simpa [listBook] using hs
  · rw [parse_tags h1]; exact h.order.nodup
  · rw [parse_tags h1]; exact h.order.tags
  · intro f hf
    rcases List.mem_append.1 hf with hf | hf
    · obtain ⟨l', m, x⟩ := h.origin f hf
      exact ⟨l', by simp [m], x⟩
    · refine ⟨l, by simp, ?_, fun hsav => ?_⟩
      · rcases hkept f hf with ⟨_, hr, e⟩ | h
        · obtain ⟨r, hr', rfl⟩ := List.mem_map.1 hr
          exact .inl ⟨r, hr', e⟩
        · exact .inr h
      · obtain ⟨gs', e1, e2⟩ := savable_reads E.bad hl hz hw hsav.texts hsav.domains hsav.regex
          (fun x hx => Nat.lt_of_le_of_lt (line_length hx) hsav.size) l.keep
        rw [reads_unique g1 e1] at hf
        exact e2 f hf

/-- a change that concerns neither the rules nor their indexes -/
theorem HasLoaded.other {E : Env} {c c' : Client E} {ls : List LoadedList} {tags tags' : List Chars} {fs : List Filter}
    (h : HasLoaded c ls tags fs) (hist : History E c' fs) (e1 : c'.startBuild = c.startBuild)
    (e2 : c'.numHostAnchoredFilters = c.numHostAnchoredFilters) (e3 : c'.numHostAnchoredExceptionFilters = c.numHostAnchoredExceptionFilters)
    (hn : c'.tags.Nodup) (ht : ∀ t, t ∈ c'.tags ↔ t ∈ tags'.map utf8) : HasLoaded c' ls tags' fs :=
  ⟨⟨hist, h.order.loaded, h.order.sound, hn, ht⟩, h.origin, by rw [e1]; exact h.size, by rw [e2]; exact h.hosts, by rw [e3]; exact h.hostExceptions⟩

theorem HasLoaded.addTag {E : Env} {c : Client E} {ls : List LoadedList} {tags : List Chars} {fs : List Filter}
    (h : HasLoaded c ls tags fs) (t : Chars) : HasLoaded (c.addTag (utf8 t)) ls (t :: tags) fs := by
  obtain ⟨a, c', fs', h1, -, h3⟩ := inOrder_step h.order (call := .addTag (utf8 t)) trivial
  simp only [Call.op, step] at h1
  cases h1
  have e : (c.addTag (utf8 t)).startBuild = c.startBuild ∧ (c.addTag (utf8 t)).numHostAnchoredFilters = c.numHostAnchoredFilters ∧
      (c.addTag (utf8 t)).numHostAnchoredExceptionFilters = c.numHostAnchoredExceptionFilters := by
    unfold Client.addTag; split <;> exact ⟨rfl, rfl, rfl⟩
  exact h.other (.addTag _ h.order.hist) e.1 e.2.1 e.2.2 h3.nodup h3.tags

theorem HasLoaded.removeTag {E : Env} {c : Client E} {ls : List LoadedList} {tags : List Chars} {fs : List Filter}
    (h : HasLoaded c ls tags fs) (t : Chars) : HasLoaded (c.removeTag (utf8 t)) ls (tags.filter (· ≠ t)) fs := by
  obtain ⟨a, c', fs', h1, -, h3⟩ := inOrder_step h.order (call := .removeTag (utf8 t)) trivial
  simp only [Call.op, step] at h1
  cases h1
  refine h.other (.removeTag _ h.order.hist) rfl rfl rfl h3.nodup fun x => ?_
  rw [h3.tags, ← utf8_tags_filter]
  rfl

/-- tags can be exchanged -/
theorem history_retag {E : Env} {c : Client E} {fs : List Filter} (h : History E c fs) {ts : List Bytes} (hn : ts.Nodup) :
    History E { c with tags := ts } fs := by
  have clear : ∀ (ts : List Bytes) (c : Client E), c.tags = ts → History E c fs → History E { c with tags := [] } fs := by
    intro ts
    induction ts with
    | nil => intro c e h; rw [← e]; exact h
    | cons t ts ih =>
      intro c e h
      have := ih (c.removeTag t) (by simp [Client.removeTag, e]) (.removeTag t h)
      exact this
  have add : ∀ (ts pre : List Bytes) (c : Client E), c.tags = pre → (pre ++ ts).Nodup → History E c fs →
      History E { c with tags := pre ++ ts } fs := by
    intro ts
    induction ts with
    | nil => intro pre c e _ h; rw [List.append_nil, ← e]; exact h
    | cons t ts ih =>
      intro pre c e hn h
      have ht : c.tagExists t = false := by
        simp only [Client.tagExists, e, List.contains_eq_mem, decide_eq_false_iff_not]
        intro hm
        have := List.nodup_append.1 hn
        exact this.2.2 t hm t (by simp) rfl
      have e' : c.addTag t = { c with tags := pre ++ [t] } := by
        unfold Client.addTag; rw [ht, e]; rfl
      have := ih (pre ++ [t]) (c.addTag t) (by rw [e']) (by simpa using hn) (.addTag t h)
      rw [e'] at this
      simpa using this
  have := add ts [] { c with tags := [] } rfl (by simpa using hn) (clear _ c rfl h)
  simpa using this

/-! ### saving -/

theorem hasLoaded_storable {E : Env} (hb : ModerateBlooms E) {c : Client E} {ls : List LoadedList} {tags : List Chars}
    {fs : List Filter} (h : HasLoaded c ls tags fs)
    (hs : ∀ l ∈ ls, SavableList (utf8 l.text) (l.rules.map TextRule.rule)) (hsum : listBytes8 ls ≤ 20000000) :
    StorableClient true true c ∧ (c.bytes true true).length < 2 ^ 31 := by
  have h1 := h.hosts
  have h2 := h.hostExceptions
  have h3 := h.size
  have h4 := bytes_size c true true
  have h5 := fresh_size E
  obtain ⟨b1, b2⟩ := hb
  have hr : ∀ f ∈ fs, LeftOut true true f ∨ Representable f := by
    intro f hf
    obtain ⟨l, hl, -, x⟩ := h.origin f hf
    exact x (hs l hl)
  exact ⟨history_storable h.order.hist hr ⟨by omega, by omega⟩, by omega⟩

/-- saving a client -/
theorem tracks_serialize {E : Env} (hb : ModerateBlooms E) {d : Client E} {b : ClientBook} (h : Tracks d b)
    (hs : ∀ l ∈ b.lists, SavableList (utf8 l.text) (l.rules.map TextRule.rule)) (hsum : listBytes8 b.lists ≤ 20000000) :
    ∃ bytes, d.jsSerialize = .ok bytes ∧ Stored (E := E) bytes b.lists := by
  cases h with
  | own h hd =>
    obtain ⟨k1, k2⟩ := hasLoaded_storable hb h hs hsum
    refine ⟨_, ?_, d, b.tags, _, h, rfl, k1, k2⟩
    unfold Client.jsSerialize
    rw [serialize_eq (history_written h.order.hist) true true]
    rfl
  | @data c fs h same tags plain hd =>
    obtain ⟨k1, k2⟩ := hasLoaded_storable hb h hs hsum
    have hw := history_written h.order.hist
    have hl : ∀ id, Pointwise SameRule (c.storedList true true id) (d.storedList true true id) := by
      intro id
      have := same.lists id
      cases id <;> simp only [Client.storedList] <;> first | exact .nil | exact this (by simp)
    obtain ⟨n1, n2⟩ := network_bytes same hw hl
    refine ⟨_, ?_, c, b.tags, _, h, n2, k1, k2⟩
    unfold Client.jsSerialize
    rw [serialize_eq n1 true true]
    rfl

theorem tracks_tags {E : Env} {d : Client E} {b : ClientBook} (h : Tracks d b) :
    d.tags.Nodup ∧ ∀ t, t ∈ d.tags ↔ t ∈ b.tags.map utf8 := by
  cases h with
  | own h hd => exact ⟨h.order.nodup, h.order.tags⟩
  | data h same tags plain hd => rw [tags]; exact ⟨h.order.nodup, h.order.tags⟩

/-- loading data -/
theorem tracks_deserialize {E : Env} {d : Client E} {b : ClientBook} (h : Tracks d b) {bytes : Bytes} {ls : List LoadedList}
    (hs : Stored (E := E) bytes ls) :
    ∃ d', d.jsDeserialize (.buffer bytes) = .ok (.ok d') ∧ Tracks d' { b with lists := ls, fromData := true } := by
  obtain ⟨c, tags, fs, h1, rfl, h2, h3⟩ := hs
  obtain ⟨d', e1, e2, e3, -⟩ := deserialize_eq h2 h3 d []
  rw [List.append_nil] at e1
  obtain ⟨t1, t2⟩ := tracks_tags h
  refine ⟨d', ?_, .data (c := { c with tags := d.tags }) (fs := fs)
    (h1.other (history_retag h1.order.hist t1) rfl rfl rfl t1 t2) ?_ e3 (deserialize_plain e1) rfl⟩
  · unfold Client.jsDeserialize
    simp only [e1, Res.bind_ok]
    rfl
  · have := same_network e2
    exact ⟨this.lists, this.pageRules, this.numHostAnchoredFilters, this.numHostAnchoredExceptionFilters, this.bloom,
      this.exceptionBloom, this.hostSet, this.hostExceptionSet, this.domSets⟩

/-! ### requests -/

theorem countedText_iff {bad : List Bytes} (b : ClientBook) (s : Bool) (q : TextRequest) :
    (listBook b.lists b.tags).CountedRule (Counted bad (listBook b.lists b.tags).rules q.request) s q.request ↔ b.CountedText bad s q := by
  constructor
  · rintro ⟨_, hr, he, hc, ha⟩
    obtain ⟨r, hr', rfl⟩ := List.mem_map.1 hr
    exact ⟨r, hr', he, hc, (applies_utf8 r b.tags q).1 ha⟩
  · rintro ⟨r, hr, he, hc, ha⟩
    exact ⟨r.rule, List.mem_map_of_mem hr, he, hc, (applies_utf8 r b.tags q).2 ha⟩

/-- deciding about a request -/
theorem tracks_matches {E : Env} {d : Client E} {b : ClientBook} (h : Tracks d b) {q : TextRequest} (hq : q.request.Web)
    (hc : Spec.Comparable (b.rules.map TextRule.rule) q.request) (hu : '\x00' ∉ q.url) (hdom : '\x00' ∉ q.domain) (hroll : E.fp.rolls (utf8 q.url)) :
    ∃ x d', d.jsCall (.matches (.string q.url) q.request.context (.string q.domain)) = .ok (some x, d') ∧
      (x = true ↔ b.CountedText E.bad false q ∧ ¬ b.CountedText E.bad true q) ∧ Tracks d' b := by
  have js : ∀ {o : Outcome E}, d.query q.request.url q.request.context q.request.domain = .ok o →
      d.jsCall (.matches (.string q.url) q.request.context (.string q.domain)) =
        .ok (some o.block, { d with stats := o.stats, badFps := o.badFps }) := by
    intro o ho
    simp only [Client.jsCall, Client.jsMatches, cstring_string hu, cstring_string hdom, Client.matches]
    rw [← url_utf8, show some (utf8 q.domain) = q.request.domain from rfl, ho]
    rfl
  have hroll' : E.fp.rolls q.request.url := by rw [url_utf8]; exact hroll
  cases h with
  | @own fs h hd =>
    obtain ⟨o, h1, h2⟩ := inOrder_matches h.order hq hc (fun e => by cases e) hroll'
    refine ⟨o.block, _, js h1, ?_, .own (h.other (.query h.order.hist (url := q.request.url) (ctx := q.request.context)
      (dom := q.request.domain) (b := o.block) ?_) rfl rfl rfl h.order.nodup h.order.tags) hd⟩
    · rw [h2.blocked, countedText_iff, countedText_iff]
    · unfold Client.matches; rw [h1]; rfl
  | @data c fs h same tags plain hd =>
    obtain ⟨o, h1, h2⟩ := inOrder_matches h.order hq hc (fun e => by cases e) hroll'
    obtain ⟨o', e1, e2⟩ := query_network h.order.hist same tags (web_url hq).2.2 h1
    refine ⟨o'.block, _, js e1, ?_, .data h ?_ tags plain hd⟩
    · rw [e2.block, h2.blocked, countedText_iff, countedText_iff]
    · exact ⟨same.lists, same.pageRules, same.numHostAnchoredFilters, same.numHostAnchoredExceptionFilters, same.bloom,
        same.exceptionBloom, same.hostSet, same.hostExceptionSet, same.domSets⟩

/-- the rule found is one of the lists -/
def FromList (ls : List LoadedList) (tags : List Chars) (s : Bool) (q : TextRequest) (f : Filter) : Prop :=
  ∃ l ∈ ls, ∃ r ∈ l.rules, r.exception = s ∧ r.AppliesTo tags q ∧ ¬ r.rule.HostOnly ∧ r.rule.WellFormed ∧ f = r.rule.filter l.keep

theorem listedText_iff (b : ClientBook) (s : Bool) (q : TextRequest) :
    (listBook b.lists b.tags).CountedRule (HostCounted (listBook b.lists b.tags).rules q.request) s q.request ↔ b.ListedText s q := by
  constructor
  · rintro ⟨_, hr, he, hc, ha⟩
    obtain ⟨r, hr', rfl⟩ := List.mem_map.1 hr
    exact ⟨r, hr', he, hc, (applies_utf8 r b.tags q).1 ha⟩
  · rintro ⟨r, hr, he, hc, ha⟩
    exact ⟨r.rule, List.mem_map_of_mem hr, he, hc, (applies_utf8 r b.tags q).2 ha⟩

theorem hasLoaded_find {E : Env} {c : Client E} {b : ClientBook} {fs : List Filter} (h : HasLoaded c b.lists b.tags fs)
    {q : TextRequest} (hq : q.request.Web) (hc : Spec.Comparable (listBook b.lists b.tags).rules q.request) (hno : ¬ b.FindsHost E.bad q) :
    ∃ found, c.findMatchingFilters q.request.url q.request.context q.request.domain = .ok found ∧
      (found.block = true ↔ b.ListedText false q ∧ ¬ b.ListedText true q) ∧ (found.filter ≠ none ↔ b.ListedText false q) ∧
      (found.exception ≠ none ↔ b.ListedText false q ∧ b.ListedText true q) ∧
      (∀ f, found.filter = some f → FromList b.lists b.tags false q f) ∧ (∀ f, found.exception = some f → FromList b.lists b.tags true q f) := by
  obtain ⟨found, hf, hv⟩ := inOrder_find h.order hq hc
  have hhost : ∀ f, found.filter = some f ∨ found.exception = some f → has f.filterType FTHostOnly = false := fun f hf' =>
    Bool.eq_false_iff.2 fun h' => hno ((finds_host h.order hq hc hf).2 ⟨f, hf', h'⟩)
  obtain ⟨o1, o2⟩ := found_from h.order.hist hf
  have fromList : ∀ (s : Bool) (f : Filter),
      (f ∈ fs ∧ Kind s f ∧ has f.filterType FTHostOnly = false ∨ ∃ g ∈ fs, HostRule s g ∧ f = g.bare) ∧
        Acts c.tags q.request.url (resolveContext q.request.url q.request.context q.request.domain) q.request.domain f →
      has f.filterType FTHostOnly = false → FromList b.lists b.tags s q f := by
    rintro s f ⟨hfrom, ha⟩ hf0
    rcases hfrom with ⟨hm, hk, -⟩ | ⟨g, hg, hg', rfl⟩
    · obtain ⟨l, hl, ho, -⟩ := h.origin f hm
      rcases ho with ⟨r', k1, rfl⟩ | h' | h'
      · have hr' : r'.rule ∈ (listBook b.lists b.tags).rules := List.mem_map_of_mem (List.mem_flatMap.2 ⟨l, hl, k1⟩)
        have hw := h.order.sound.wellFormed _ hr'
        rw [acts_iff hw l.keep hq (hc.inBounds _ hr')] at ha
        refine ⟨l, hl, r', k1, (kind_filter r'.rule l.keep s).1 hk, (applies_utf8 r' b.tags q).1 ((appliesTo_tags h.order.tags q.request).1 ha),
          fun ho => ?_, hw, rfl⟩
        rw [(hostOnly_bit r'.rule l.keep).2 ho] at hf0
        cases hf0
      · exact absurd hk (h' s)
      · have := ha.1
        rw [h'.2] at this
        cases this
    · have : has g.bare.filterType FTHostOnly = true := by simpa using hg'.2.1
      rw [this] at hf0
      cases hf0
  refine ⟨found, hf, ?_, ?_, ?_, fun f e => fromList false f (o1 f e) (hhost f (.inl e)), fun f e => fromList true f (o2 f e) (hhost f (.inr e))⟩
  · rw [hv.blocked, listedText_iff, listedText_iff]
  · rw [hv.matched, listedText_iff]
  · rw [hv.excepted, listedText_iff, listedText_iff]

/-- a rule of a client that has loaded data is found in its arrays -/
theorem found_plain {E : Env} {c d : Client E} {fs : List Filter} (hist : History E c fs) (same : SameNetwork c d)
    (plain : ∀ id, ∀ f ∈ d.lists id, f.ruleDefinition = none) {url : Bytes} {ctx : Mask} {dom : Option Bytes} {found : Found}
    (h : d.findMatchingFilters url ctx dom = .ok found) {f : Filter} (hf : found.filter = some f ∨ found.exception = some f)
    (hk : has f.filterType FTHostOnly = false) : f.ruleDefinition = none := by
  have hold := history_holds hist
  have key : ∀ {s : Bool}, d.FindMeets s url f → f.ruleDefinition = none := by
    intro s hm
    rcases findMeets_cases hm with ⟨id, -, hf⟩ | ⟨t, i, ht, hf⟩
    · exact plain id f hf
    · exfalso
      have hp : SamePointer (SameSet SameEntry) (c.hs s) (d.hs s) := by
        cases s
        · exact same.hostSet
        · exact same.hostExceptionSet
      rw [ht] at hp
      generalize hc : c.hs s = x at hp
      cases hp with
      | @some a b hab =>
        have hlt : i % t.count < a.count := by
          rw [← hab.count]
          refine Nat.mod_lt _ ?_
          rw [hab.count]
          have hcm := history_comparable hist
          cases s
          · exact (hcm.hostSet a hc).1
          · exact (hcm.hostExceptionSet a hc).1
        obtain ⟨g, hg, hs⟩ := pointwise_mem (hab.bucket _ hlt) f hf
        obtain ⟨g', -, hr, rfl⟩ := entry_is_host hold hc hg
        have : has g'.bare.filterType FTHostOnly = true := by simpa using hr.2.1
        rw [← hs.kind, hk] at this
        cases this
  rcases hold.ready with hr | ⟨rfl, -, hh, -⟩
  · have hp : ∀ {A B : Type} {R : A → B → Prop} {x : Option A} {y : Option B}, SamePointer R x y → x.isSome = true → y.isSome = true := by
      intro A B R x y h hx
      cases h with
      | null => cases hx
      | some _ => rfl
    have hd : d.Ready := by
      refine ⟨fun s => ?_, fun s => ?_, fun i => hp (same.domSets i) (hr.doms i)⟩
      · have := hr.bl s
        cases s
        · show d.bloom.isSome = true
          rw [same.bloom]; exact this
        · show d.exceptionBloom.isSome = true
          rw [same.exceptionBloom]; exact this
      · have := hr.hs s
        cases s
        · exact hp same.hostSet this
        · exact hp same.hostExceptionSet this
    cases find_ok hd rfl h with
    | free _ => rcases hf with hf | hf <;> cases hf
    | excepted f e m1 a1 m2 a2 =>
      rcases hf with hf | hf
      · cases hf; exact key m1
      · cases hf; exact key m2
    | blocked f m1 a1 _ =>
      rcases hf with hf | hf
      · cases hf; exact key m1
      · cases hf
  · have hempty : ∀ id, d.lists id = [] := by
      intro id
      obtain ⟨l, h1, h2⟩ := same.pageRules id
      have : l = [] := by
        apply List.eq_nil_iff_forall_not_mem.2
        intro f hf
        have := (hold.mem.1 (h1.subset hf)).1
        simp at this
      rw [this] at h2
      generalize d.lists id = x at h2
      cases h2; rfl
    have hp : ∀ {A B : Type} {R : A → B → Prop} {x : Option A} {y : Option B}, SamePointer R x y → x = none → y = none := by
      intro A B R x y h hx
      cases h with
      | null => rfl
      | some _ => cases hx
    have hhost : ∀ s, d.hs s = none := by
      intro s
      cases s
      · exact hp same.hostSet (hh false)
      · exact hp same.hostExceptionSet (hh true)
    rw [find_empty hempty hhost] at h
    cases h
    rcases hf with hf | hf <;> cases hf

/-- how a rule found is shown -/
theorem shows_own {b : ClientBook} (hd : b.fromData = false) {s : Bool} {q : TextRequest} {x : Option Filter}
    (h : ∀ f, x = some f → FromList b.lists b.tags s q f) :
    ∃ t o, foundTexts x = .ok (t, o) ∧ (x ≠ none → b.Shows s q t o) ∧ (x = none → t = none ∧ o = none) := by
  cases x with
  | none => exact ⟨none, none, rfl, by simp, by simp⟩
  | some f =>
    obtain ⟨l, hl, r, hr, he, ha, hn, hw, rfl⟩ := h f rfl
    refine ⟨_, _, foundTexts_text (filter_hasText hw l.keep), fun _ => ⟨l, hl, r, hr, he, ha, fromUtf8_utf8 r.text, ?_, ?_⟩, by simp⟩
    · rintro ⟨hk, -⟩
      simp [RuleText.filter, hk, (rule_line r).2, fromUtf8_utf8]
    · rintro (hk | hk)
      · simp [RuleText.filter, hk]
      · rw [hd] at hk; cases hk

theorem shows_data {b : ClientBook} (hd : b.fromData = true) {s : Bool} {q : TextRequest} {x y : Option Filter}
    (h : ∀ f, x = some f → FromList b.lists b.tags s q f) (hxy : SamePointer SameReport x y)
    (hp : ∀ f, y = some f → has f.filterType FTHostOnly = false → f.ruleDefinition = none) :
    ∃ t o, foundTexts y = .ok (t, o) ∧ (x ≠ none → b.Shows s q t o) ∧ (x = none → t = none ∧ o = none) := by
  cases hxy with
  | null => exact ⟨none, none, rfl, by simp, by simp⟩
  | @some f g hfg =>
    obtain ⟨l, hl, r, hr, he, ha, hn, hw, rfl⟩ := h f rfl
    rcases hfg with hfg | ⟨-, pat, hb⟩
    · refine ⟨_, _, foundTexts_text (hfg.text _ (filter_hasText hw l.keep)),
        fun _ => ⟨l, hl, r, hr, he, ha, fromUtf8_utf8 r.text, ?_, fun _ => hp g rfl ?_⟩, by simp⟩
      · rintro ⟨-, hk⟩
        rw [hd] at hk; cases hk
      · rw [hfg.kind]
        have := hostOnly_bit r.rule l.keep
        cases hx : has (r.rule.filter l.keep).filterType FTHostOnly
        · rfl
        · exact absurd (this.1 hx) hn
    · have := hb.2.2
      cases this

/-- asking for the rules -/
theorem tracks_find {E : Env} {d : Client E} {b : ClientBook} (h : Tracks d b) {q : TextRequest} (hq : q.request.Web)
    (hc : Spec.Comparable (b.rules.map TextRule.rule) q.request) (hu : '\x00' ∉ q.url) (hdom : '\x00' ∉ q.domain)
    (hno : ¬ b.FindsHost E.bad q) :
    ∃ a, d.jsFind (.string q.url) q.request.context (.string q.domain) = .ok a ∧ b.TellsAbout q a := by
  have js : ∀ {found : Found} {t o t' o' : Option Bytes},
      d.findMatchingFilters q.request.url q.request.context q.request.domain = .ok found →
      foundTexts found.filter = .ok (t, o) → foundTexts found.exception = .ok (t', o') →
      d.jsFind (.string q.url) q.request.context (.string q.domain) = .ok ⟨found.block, t, o, t', o'⟩ := by
    intro found t o t' o' h1 h2 h3
    simp only [Client.jsFind, cstring_string hu, cstring_string hdom]
    rw [← url_utf8, show some (utf8 q.domain) = q.request.domain from rfl, h1]
    simp only [Res.bind_ok, h2, h3]
    rfl
  cases h with
  | @own fs h hd =>
    obtain ⟨found, h1, h2, h3, h4, h5, h6⟩ := hasLoaded_find h hq hc hno
    obtain ⟨t, o, e, n1, n2⟩ := shows_own hd h5
    obtain ⟨t', o', e', n1', n2'⟩ := shows_own hd h6
    exact ⟨_, js h1 e e', h2, fun h => n1 (h3.2 h), fun h => n2 (Classical.byContradiction fun hn => h (h3.1 hn)),
      fun h h' => n1' (h4.2 ⟨h, h'⟩), fun h => n2' (Classical.byContradiction fun hn => h (h4.1 hn))⟩
  | @data c fs h same tags plain hd =>
    obtain ⟨found, h1, h2, h3, h4, h5, h6⟩ := hasLoaded_find h hq hc hno
    obtain ⟨found', k1, k2⟩ := find_network h.order.hist same tags (web_url hq).2.2 h1
    have hp := fun f hf hk => found_plain h.order.hist same plain k1 (f := f) hf hk
    obtain ⟨t, o, e, n1, n2⟩ := shows_data hd h5 k2.filter (fun f hf hk => hp f (.inl hf) hk)
    obtain ⟨t', o', e', n1', n2'⟩ := shows_data hd h6 k2.exception (fun f hf hk => hp f (.inr hf) hk)
    refine ⟨_, js k1 e e', ?_, fun h => n1 (h3.2 h), fun h => n2 (Classical.byContradiction fun hn => h (h3.1 hn)),
      fun h h' => n1' (h4.2 ⟨h, h'⟩), fun h => n2' (Classical.byContradiction fun hn => h (h4.1 hn))⟩
    show found'.block = true ↔ _
    rw [k2.block]; exact h2

/-! ### the other methods -/

/-- a rule consisting of a host is found -/
theorem tracks_find_host {E : Env} {d : Client E} {b : ClientBook} (h : Tracks d b) (hd : b.fromData = false) {q : TextRequest} (hq : q.request.Web)
    (hc : Spec.Comparable (b.rules.map TextRule.rule) q.request) (hu : '\x00' ∉ q.url) (hdom : '\x00' ∉ q.domain) (hhost : b.FindsHost E.bad q) :
    d.jsFind (.string q.url) q.request.context (.string q.domain) = .ub .oobRead := by
  cases h with
  | data _ _ _ _ hd' => rw [hd] at hd'; cases hd'
  | own hl _ =>
    obtain ⟨found, hf, -⟩ := inOrder_find hl.order hq hc
    obtain ⟨f, hf1, hf2⟩ := (finds_host hl.order hq hc hf).1 hhost
    have := C61_host_rule_counterexample (page := utf8 q.domain) hl.order.hist hf hf1 hf2
    have e : d.jsFind (.string q.url) q.request.context (.string q.domain) = d.nodeFind q.request.url q.request.context (some (utf8 q.domain)) := by
      simp only [Client.jsFind, cstring_string hu, cstring_string hdom]
      rw [← url_utf8]
      rfl
    rw [e, this]

theorem tracks_new (E : Env) : Tracks (Client.fresh E) {} :=
  .own (hasLoaded_empty .new (Nat.le_refl _) rfl rfl (by simp [Client.fresh]) (by simp [Client.fresh])) rfl

theorem tracks_load {E : Env} (hE : FixedBlooms E) {d : Client E} {b : ClientBook} (h : Tracks d b) (hd : b.fromData = false) {l : LoadedList}
    (h0 : '\x00' ∉ l.text) (hl : ListOf ((textLines l.text).map utf8) (l.rules.map TextRule.rule))
    (hs : SoundList E.bad ((b.rules ++ l.rules).map TextRule.rule)) :
    ∃ d', d.jsCall (.parse (.string l.text) l.keep) = .ok (none, d') ∧ Tracks d' { b with lists := b.lists ++ [l] } := by
  cases h with
  | own h _ =>
    obtain ⟨c', gs, h1, h2⟩ := hasLoaded_load hE h h0 hl hs
    refine ⟨c', ?_, .own h2 hd⟩
    simp only [Client.jsCall, Client.jsParse, cstring_string h0, h1]
    rfl
  | data h same tags plain hd' => rw [hd] at hd'; cases hd'

theorem tracks_clear {E : Env} {d : Client E} {b : ClientBook} (h : Tracks d b) :
    Tracks d.clear { b with lists := [], fromData := false } := by
  obtain ⟨t1, t2⟩ := tracks_tags h
  exact .own (hasLoaded_empty (.clear d) (Nat.le_refl _) rfl rfl t1 t2) rfl

theorem tracks_addTag {E : Env} {d : Client E} {b : ClientBook} (h : Tracks d b) (t : Chars) :
    Tracks (d.addTag (utf8 t)) { b with tags := t :: b.tags } := by
  cases h with
  | own h hd => exact .own (h.addTag t) hd
  | @data c fs h same tags plain hd =>
    have e : (d.addTag (utf8 t)).tags = (c.addTag (utf8 t)).tags := by
      unfold Client.addTag Client.tagExists
      rw [tags]
      split
      · exact tags
      · rfl
    refine .data (h.addTag t) ?_ e ?_ hd
    · unfold Client.addTag Client.tagExists
      rw [tags]
      split
      · exact same
      · exact ⟨same.lists, same.pageRules, same.numHostAnchoredFilters, same.numHostAnchoredExceptionFilters, same.bloom,
          same.exceptionBloom, same.hostSet, same.hostExceptionSet, same.domSets⟩
    · unfold Client.addTag
      split <;> exact plain

theorem tracks_removeTag {E : Env} {d : Client E} {b : ClientBook} (h : Tracks d b) (t : Chars) :
    Tracks (d.removeTag (utf8 t)) { b with tags := b.tags.filter (· ≠ t) } := by
  cases h with
  | own h hd => exact .own (h.removeTag t) hd
  | @data c fs h same tags plain hd =>
    refine .data (h.removeTag t) ?_ ?_ plain hd
    · exact ⟨same.lists, same.pageRules, same.numHostAnchoredFilters, same.numHostAnchoredExceptionFilters, same.bloom,
        same.exceptionBloom, same.hostSet, same.hostExceptionSet, same.domSets⟩
    · show d.tags.erase _ = c.tags.erase _
      rw [tags]

theorem tracks_enable {E : Env} {d : Client E} {b : ClientBook} (h : Tracks d b) : Tracks d.enableBadFingerprintDetection b := by
  have e : ∀ d : Client E, d.enableBadFingerprintDetection.startBuild = d.startBuild ∧
      d.enableBadFingerprintDetection.numHostAnchoredFilters = d.numHostAnchoredFilters ∧
      d.enableBadFingerprintDetection.numHostAnchoredExceptionFilters = d.numHostAnchoredExceptionFilters ∧
      d.enableBadFingerprintDetection.tags = d.tags := by
    intro d
    unfold Client.enableBadFingerprintDetection; split <;> exact ⟨rfl, rfl, rfl, rfl⟩
  cases h with
  | own h hd =>
    obtain ⟨e1, e2, e3, e4⟩ := e d
    exact .own (h.other (.enableBadFingerprintDetection h.order.hist) e1 e2 e3 (by rw [e4]; exact h.order.nodup)
      (by rw [e4]; exact h.order.tags)) hd
  | @data c fs h same tags plain hd =>
    refine .data h ?_ ((e d).2.2.2.trans tags) ?_ hd
    · unfold Client.enableBadFingerprintDetection
      split
      · exact same
      · exact ⟨same.lists, same.pageRules, same.numHostAnchoredFilters, same.numHostAnchoredExceptionFilters, same.bloom,
          same.exceptionBloom, same.hostSet, same.hostExceptionSet, same.domSets⟩
    · unfold Client.enableBadFingerprintDetection
      split <;> exact plain

/-! ### programs -/

/-- an object and what is kept in mind about it -/
inductive TracksObject {E : Env} : Option (Client E) → Option ClientBook → Prop
  | cleaned : TracksObject none none
  | alive {d b} : Tracks d b → TracksObject (some d) (some b)

/-- the objects and buffers of a program are those the book describes -/
structure InProgram {E : Env} (w : NodeWorld E) (b : ProgramBook) : Prop where
  clients : Pointwise TracksObject w.clients b.clients
  buffers : Pointwise (Stored (E := E)) w.buffers b.saved

theorem pointwise_set {A B : Type _} {R : A → B → Prop} {l : List A} {m : List B} (h : Pointwise R l m) {a : A} {b : B} (hab : R a b) (i : Nat) :
    Pointwise R (l.set i a) (m.set i b) := by
  induction h generalizing i with
  | nil => exact .nil
  | cons hr ht ih =>
    cases i with
    | zero => exact .cons hab ht
    | succ i => exact .cons hr (ih i)

theorem pointwise_modify {A B : Type _} {R : A → B → Prop} {l : List A} {m : List B} (h : Pointwise R l m) {a : A} {i : Nat} {b : B}
    (hb : m[i]? = some b) {f : B → B} (hab : R a (f b)) : Pointwise R (l.set i a) (m.modify i f) := by
  induction h generalizing i with
  | nil => cases hb
  | cons hr ht ih =>
    cases i with
    | zero => cases hb; exact .cons hab ht
    | succ i => exact .cons hr (ih hb)

theorem pointwise_get' {A B : Type _} {R : A → B → Prop} {l : List A} {m : List B} (h : Pointwise R l m) {i : Nat} {b : B}
    (hb : m[i]? = some b) : ∃ a, l[i]? = some a ∧ R a b := by
  induction h generalizing i with
  | nil => cases hb
  | cons hr ht ih =>
    cases i with
    | zero => cases hb; exact ⟨_, rfl, hr⟩
    | succ i => exact ih hb

/-- Every statement gets the value expected. -/
theorem program_step {E : Env} (hE : FixedBlooms E) (hb : ModerateBlooms E) {w : NodeWorld E} {b : ProgramBook} (h : InProgram w b) {x : Stmt}
    (hx : b.Allows E x) : ∃ a w', w.step x.js = .ok (a, w') ∧ b.Expects E.bad x a ∧ InProgram w' (b.after x) := by
  have object : ∀ {i : Nat} {P : ClientBook → Prop}, b.Has i P → ∃ c d, b.clients[i]? = some (some c) ∧ P c ∧ w.clients[i]? = some (some d) ∧ Tracks d c := by
    rintro i P ⟨c, hc, hp⟩
    obtain ⟨a, ha, ht⟩ := pointwise_get' h.clients hc
    cases ht with
    | alive ht => exact ⟨c, _, hc, hp, ha, ht⟩
  have change : ∀ {i : Nat} {c : ClientBook} {d : Client E} {f : ClientBook → ClientBook}, b.clients[i]? = some (some c) → Tracks d (f c) →
      InProgram (w.put i d) (b.change i f) := by
    intro i c d f hc ht
    exact ⟨pointwise_modify h.clients hc (.alive ht), h.buffers⟩
  have keep : ∀ {i : Nat} {c : ClientBook} {d : Client E}, b.clients[i]? = some (some c) → Tracks d c → InProgram (w.put i d) b := by
    intro i c d hc ht
    have := pointwise_set h.clients (.alive ht) i
    obtain ⟨hi, hc⟩ := List.getElem?_eq_some_iff.1 hc
    rw [← hc, List.set_getElem_self hi] at this
    exact ⟨this, h.buffers⟩
  have on : ∀ {i : Nat} {d : Client E} {f : Client E → Res (NodeValue × NodeWorld E)}, w.clients[i]? = some (some d) → w.on i f = f d := by
    intro i d f hd
    unfold NodeWorld.on
    rw [hd]
  cases x with
  | new => exact ⟨.undefined, _, rfl, rfl, pointwise_append h.clients (.cons (.alive (tracks_new E)) .nil), h.buffers⟩
  | load i l =>
    obtain ⟨c, d, h1, ⟨h2, h3, h4, h5⟩, h6, h7⟩ := object hx
    obtain ⟨d', e1, e2⟩ := tracks_load hE h7 h2 h3 h4 h5
    refine ⟨.undefined, w.put i d', ?_, rfl, change h1 e2⟩
    simp only [Stmt.js, NodeWorld.step, on h6, e1]
    rfl
  | clear i =>
    obtain ⟨c, d, h1, -, h6, h7⟩ := object hx
    refine ⟨.undefined, w.put i d.clear, ?_, rfl, change h1 (tracks_clear h7)⟩
    simp only [Stmt.js, NodeWorld.step, on h6]
    rfl
  | addTag i t =>
    obtain ⟨c, d, h1, h2, h6, h7⟩ := object hx
    refine ⟨.undefined, w.put i (d.addTag (utf8 t)), ?_, rfl, change h1 (tracks_addTag h7 t)⟩
    simp only [Stmt.js, NodeWorld.step, on h6, Client.jsCall, Client.jsAddTag, cstring_string h2]
    rfl
  | removeTag i t =>
    obtain ⟨c, d, h1, h2, h6, h7⟩ := object hx
    refine ⟨.undefined, w.put i (d.removeTag (utf8 t)), ?_, rfl, change h1 (tracks_removeTag h7 t)⟩
    simp only [Stmt.js, NodeWorld.step, on h6, Client.jsCall, Client.jsRemoveTag, cstring_string h2]
    rfl
  | «matches» i q =>
    obtain ⟨c, d, h1, ⟨h2, h3, h4, h5, h5'⟩, h6, h7⟩ := object hx
    obtain ⟨x, d', e1, e2, e3⟩ := tracks_matches h7 h2 h3 h4 h5 h5'
    refine ⟨.bool x, w.put i d', ?_, ⟨c, h1, x, rfl, e2⟩, keep h1 e3⟩
    simp only [Stmt.js, NodeWorld.step, on h6, e1]
    rfl
  | find i q =>
    obtain ⟨c, d, h1, ⟨h2, h3, h4, h5, h5'⟩, h6, h7⟩ := object hx
    obtain ⟨a, e1, e2⟩ := tracks_find h7 h2 h3 h4 h5 h5'
    refine ⟨.found a, w, ?_, ⟨c, h1, a, rfl, e2⟩, h⟩
    simp only [Stmt.js, NodeWorld.step, on h6, e1]
    rfl
  | serialize i =>
    obtain ⟨c, d, h1, ⟨h2, h3⟩, h6, h7⟩ := object hx
    obtain ⟨bytes, e1, e2⟩ := tracks_serialize hb h7 h2 h3
    refine ⟨.buffer bytes, { w with buffers := w.buffers ++ [bytes] }, ?_, ⟨bytes, rfl⟩, ?_⟩
    · simp only [Stmt.js, NodeWorld.step, on h6, e1]
      rfl
    · simp only [ProgramBook.after, h1]
      exact ⟨h.clients, pointwise_append h.buffers (.cons e2 .nil)⟩
  | deserialize i x =>
    cases x with
    | missing =>
      obtain ⟨c, d, h1, -, h6, h7⟩ := object hx
      refine ⟨_, w, ?_, rfl, h⟩
      simp only [Stmt.js, NodeWorld.step, on h6]
      rfl
    | other =>
      obtain ⟨c, d, h1, -, h6, h7⟩ := object hx
      refine ⟨_, w, ?_, rfl, h⟩
      simp only [Stmt.js, NodeWorld.step, on h6]
      rfl
    | saved k =>
      obtain ⟨hx, hk⟩ := hx
      obtain ⟨c, d, h1, -, h6, h7⟩ := object hx
      have hs : b.saved[k]? = some b.saved[k] := List.getElem?_eq_getElem hk
      obtain ⟨bytes, hbytes, hst⟩ := pointwise_get' h.buffers hs
      obtain ⟨d', e1, e2⟩ := tracks_deserialize h7 hst
      refine ⟨.bool true, w.put i d', ?_, rfl, ?_⟩
      · simp only [Stmt.js, NodeWorld.step, on h6, NodeWorld.argument, hbytes, e1]
        rfl
      · simp only [ProgramBook.after, hs]
        exact change h1 e2
  | enableBadFingerprintDetection i =>
    obtain ⟨c, d, h1, -, h6, h7⟩ := object hx
    refine ⟨.undefined, w.put i d.enableBadFingerprintDetection, ?_, rfl, keep h1 (tracks_enable h7)⟩
    simp only [Stmt.js, NodeWorld.step, on h6]
    rfl
  | cleanup i =>
    obtain ⟨c, d, h1, -, h6, h7⟩ := object hx
    refine ⟨.undefined, { w with clients := w.clients.set i none }, ?_, rfl, pointwise_set h.clients .cleaned i, h.buffers⟩
    simp only [Stmt.js, NodeWorld.step, on h6]
    rfl

theorem program_run {E : Env} (hE : FixedBlooms E) (hb : ModerateBlooms E) {xs : List Stmt} {w : NodeWorld E} {b : ProgramBook} (h : InProgram w b)
    (hc : b.AllowsAll E xs) : ∃ as w', w.run (xs.map Stmt.js) = .ok (as, w') ∧ b.ExpectsAll E.bad xs as ∧ InProgram w' (xs.foldl ProgramBook.after b) := by
  induction xs generalizing w b with
  | nil => exact ⟨[], w, rfl, rfl, h⟩
  | cons x xs ih =>
    obtain ⟨a, w1, h1, h2, h3⟩ := program_step hE hb h hc.1
    obtain ⟨as, w2, h4, h5, h6⟩ := ih h3 hc.2
    refine ⟨a :: as, w2, ?_, ⟨a, as, rfl, h2, h5⟩, h6⟩
    simp only [List.map_cons, NodeWorld.run, h1, Res.bind_ok, h4]
    rfl

/-- **C75**, for programs that follow the rules of `ProgramBook.Allows`: whatever the program does with any number of
clients (lists loaded, tags enabled and disabled, clients cleared, saved, filled from data saved by themselves or by
other clients, and cleaned up), the library works without undefined behaviour, and every statement returns what is
expected from the strings that the program has passed to this client, or to the client whose data it has loaded. -/
theorem C75_program_partial (E : Env) (hE : FixedBlooms E) (hb : ModerateBlooms E) (xs : List Stmt) (h : ({} : ProgramBook).AllowsAll E xs) :
    ∃ as w, ({} : NodeWorld E).run (xs.map Stmt.js) = .ok (as, w) ∧ ({} : ProgramBook).ExpectsAll E.bad xs as := by
  obtain ⟨as, w, h1, h2, -⟩ := program_run (w := {}) (b := {}) hE hb ⟨.nil, .nil⟩ h
  exact ⟨as, w, h1, h2⟩

/-- **C75** fails for `findMatchingFilters` where it comes upon a rule that consists of a host: after any program of this kind, asking an
object that has loaded its lists itself reads memory beyond the text of the rule. -/
theorem C75_find_counterexample (E : Env) (hE : FixedBlooms E) (hb : ModerateBlooms E) (xs : List Stmt) (h : ({} : ProgramBook).AllowsAll E xs)
    (i : Nat) (q : TextRequest) (hi : (xs.foldl ProgramBook.after {}).Has i fun c => c.fromData = false ∧ q.request.Web ∧
      Spec.Comparable (c.rules.map TextRule.rule) q.request ∧ '\x00' ∉ q.url ∧ '\x00' ∉ q.domain ∧ c.FindsHost E.bad q) :
    ∃ as w, ({} : NodeWorld E).run (xs.map Stmt.js) = .ok (as, w) ∧ w.step (Stmt.find i q).js = .ub .oobRead := by
  obtain ⟨as, w, h1, -, h3⟩ := program_run (w := {}) (b := {}) hE hb ⟨.nil, .nil⟩ h
  refine ⟨as, w, h1, ?_⟩
  obtain ⟨c, hc, hd, hq, hsafe, hu, hdom, hhost⟩ := hi
  obtain ⟨a, ha, ht⟩ := pointwise_get' h3.clients hc
  cases ht with
  | @alive d _ ht =>
    simp only [Stmt.js, NodeWorld.step, NodeWorld.on, ha, tracks_find_host ht hd hq hsafe hu hdom hhost]
    rfl

/-- **C75**: in every state of a program, `deserialize` throws a `TypeError` without an argument, and an `Error` if the argument is not
a buffer (a variable that has not been given a value is `undefined`, which is none); no object and no buffer is changed. -/
theorem C75_not_a_buffer {E : Env} (w : NodeWorld E) (i : Nat) (d : Client E) (h : w.clients[i]? = some (some d)) :
    w.step (.deserialize i .missing) = .ok (.threw .typeError, w) ∧ w.step (.deserialize i .other) = .ok (.threw .error, w) ∧
    ∀ k, w.buffers.length ≤ k → w.step (.deserialize i (.saved k)) = .ok (.threw .error, w) := by
  refine ⟨?_, ?_, fun k hk => ?_⟩ <;> simp only [NodeWorld.step, NodeWorld.on, h, NodeWorld.argument]
  · rfl
  · rfl
  · rw [List.getElem?_eq_none hk]
    rfl

/-- a program in which there is an object, and no buffer -/
example : ∃ w, (({} : NodeWorld toyEnv).run [.new, .deserialize 0 (.saved 0)]) = .ok ([.undefined, .threw .error], w) := ⟨_, rfl⟩

/-- **C75** fails for objects that have been cleaned up: every method called on such an object, `cleanup` too, uses
memory that has been freed, whatever the object was used for before. -/
theorem C75_cleanup_counterexample {E : Env} (w : NodeWorld E) (i : Nat) (d : Client E) (h : w.clients[i]? = some (some d)) :
    ∃ w', w.step (.cleanup i) = .ok (.undefined, w') ∧
      (∀ x, w'.step (.call i x) = .ub .useAfterFree) ∧
      (∀ url option page, w'.step (.find i url option page) = .ub .useAfterFree) ∧
      w'.step (.serialize i) = .ub .useAfterFree ∧
      (∀ x, w'.step (.deserialize i x) = .ub .useAfterFree) ∧
      w'.step (.enableBadFingerprintDetection i) = .ub .useAfterFree ∧
      w'.step (.cleanup i) = .ub .useAfterFree := by
  refine ⟨{ w with clients := w.clients.set i none }, ?_, ?_⟩
  · simp only [NodeWorld.step, NodeWorld.on, h]
    rfl
  · obtain ⟨hi, -⟩ := List.getElem?_eq_some_iff.1 h
    have : (w.clients.set i none)[i]? = some none := by simp [hi]
    simp only [NodeWorld.step, NodeWorld.on, this]
    simp

private def exListed : LoadedList := { text := cs%"größe", keep := true, rules := [{ text := cs%"größe" }] }

private theorem exListed_counted (bad : List Bytes) (d : Bool) (tags : List Chars) :
    ({ lists := [exListed], tags := tags, fromData := d } : ClientBook).CountedText bad false (exPlace cs%"größe.png") := by
  obtain ⟨r, hr, h1, h2⟩ := exUmlaut_rule tags
  cases List.mem_singleton.1 hr
  refine ⟨_, hr, h1, ⟨fun h => ?_, fun dl h => ?_, fun dl h => ?_⟩, h2⟩
  · cases h.1
  · cases h.1
  · cases h.1

private theorem exListed_none (bad : List Bytes) (d : Bool) (tags : List Chars) (q : TextRequest) :
    ¬ ({ lists := [exListed], tags := tags, fromData := d } : ClientBook).CountedText bad true q := by
  rintro ⟨r, hr, he, -⟩
  cases List.mem_singleton.1 hr
  cases he

private theorem exListed_comparable (q : Request) : Spec.Comparable (exListed.rules.map TextRule.rule) q := by
  exact ⟨fun r hr => (plain_clear [] exUmlaut_plain q).inBounds r hr⟩

private theorem exListed_savable : SavableList (utf8 exListed.text) (exListed.rules.map TextRule.rule) := by
  refine ⟨by decide +kernel, fun r hr dl hd => ?_, by decide +kernel, Nat.lt_of_le_of_lt (show (utf8 exListed.text).length ≤ 1000 by decide +kernel) (by decide)⟩
  cases List.mem_singleton.1 hr
  cases hd

/-- a program: one client loads a list and is saved, another is filled with the data; the first is cleaned up, and the
other still blocks what the list says, and shows the rule, though no longer the line it comes from -/
example (E : Env) (hE : FixedBlooms E) (hb : ModerateBlooms E) (hroll : ∀ url, E.fp.rolls url) :
    ∃ bytes d d' w, ({} : NodeWorld E).run
      [.new, .call 0 (.parse (.string cs%"größe") true), .find 0 (.string cs%"http://a.com/größe.png") FOScript (.string cs%"b.com"),
       .serialize 0, .new, .deserialize 1 .missing, .deserialize 1 (.saved 0), .cleanup 0,
       .call 1 (.matches (.string cs%"http://a.com/größe.png") FOScript (.string cs%"b.com")),
       .find 1 (.string cs%"http://a.com/größe.png") FOScript (.string cs%"b.com"), .call 1 .clear,
       .call 1 (.matches (.string cs%"http://a.com/größe.png") FOScript (.string cs%"b.com"))] =
      .ok ([.undefined, .undefined, .found d, .buffer bytes, .undefined, .threw .typeError, .bool true, .undefined,
        .bool true, .found d', .undefined, .bool false], w) ∧
      d.matchingFilter.bind fromUtf8 = some cs%"größe" ∧ d.matchingOrigRule.bind fromUtf8 = some cs%"größe" ∧
      d'.matchingFilter.bind fromUtf8 = some cs%"größe" ∧ d'.matchingOrigRule = none := by
  have web : (exPlace cs%"größe.png").request.Web := exPlace_web (by decide)
  have hno : ∀ d, ¬ ({ lists := [exListed], fromData := d } : ClientBook).FindsHost E.bad (exPlace cs%"größe.png") := by
    rintro d (⟨⟨r, hr, -, ho, -⟩, -⟩ | ⟨-, ⟨r, hr, -, ho, -⟩, -⟩)
    all_goals
      cases List.mem_singleton.1 hr
      cases ho.1.1
  have listed : ∀ d, ({ lists := [exListed], fromData := d } : ClientBook).ListedText false (exPlace cs%"größe.png") := by
    intro d
    obtain ⟨r, hr, he, hc, ha⟩ := exListed_counted E.bad d []
    exact ⟨r, hr, he, hc.host, ha⟩
  obtain ⟨as, w, h1, h2⟩ := C75_program_partial E hE hb
    [.new, .load 0 exListed, .find 0 (exPlace cs%"größe.png"), .serialize 0, .new, .deserialize 1 .missing, .deserialize 1 (.saved 0), .cleanup 0,
      .matches 1 (exPlace cs%"größe.png"), .find 1 (exPlace cs%"größe.png"), .clear 1, .matches 1 (exPlace cs%"größe.png")]
    ⟨trivial, ⟨{}, rfl, rfl, by decide, .rule ({ text := cs%"größe" } : TextRule).rule .nil, plain_sound exUmlaut_plain⟩,
      ⟨_, rfl, web, exListed_comparable _, by decide, by decide, hno _⟩,
      ⟨_, rfl, fun l hl => by cases List.mem_singleton.1 hl; exact exListed_savable, Nat.le_trans (show _ ≤ 1000 by decide +kernel) (by decide)⟩,
      trivial, ⟨_, rfl, trivial⟩, ⟨⟨_, rfl, trivial⟩, Nat.zero_lt_one⟩, ⟨_, rfl, trivial⟩,
      ⟨_, rfl, web, exListed_comparable _, by decide, by decide, hroll _⟩,
      ⟨_, rfl, web, exListed_comparable _, by decide, by decide, hno _⟩, ⟨_, rfl, trivial⟩,
      ⟨_, rfl, web, ⟨(by intro r hr; cases hr)⟩, by decide, by decide, hroll _⟩, trivial⟩
  obtain ⟨a1, _, rfl, e1, a2, _, rfl, e2, a3, _, rfl, ⟨b3, k3, d, rfl, t3⟩, a4, _, rfl, ⟨bytes, rfl⟩, a5, _, rfl, e5, a6, _, rfl, e6, a7, _, rfl, e7,
    a8, _, rfl, e8, a9, _, rfl, ⟨b9, k9, x, rfl, t9⟩, a10, _, rfl, ⟨b10, k10, d', rfl, t10⟩, a11, _, rfl, e11, a12, _, rfl, ⟨b12, k12, y, rfl, t12⟩, e⟩ := h2
  cases e1; cases e2; cases e5; cases e6; cases e7; cases e8; cases e11; cases e
  cases k3; cases k9; cases k10; cases k12
  have hx : x = true := t9.2 ⟨exListed_counted _ true [], exListed_none _ true [] _⟩
  have hy : y = false := by
    cases y with
    | false => rfl
    | true =>
      obtain ⟨⟨r, hr, -⟩, -⟩ := t12.1 rfl
      cases hr
  subst hx hy
  obtain ⟨l, hl, r, hr, -, -, s1, s2, -⟩ := t3.rule (listed _)
  cases List.mem_singleton.1 hl
  cases List.mem_singleton.1 hr
  obtain ⟨l, hl, r, hr, -, -, s1', -, s3'⟩ := t10.rule (listed _)
  cases List.mem_singleton.1 hl
  cases List.mem_singleton.1 hr
  exact ⟨bytes, d, d', w, h1, s1, s2 ⟨rfl, rfl⟩, s1', s3' (.inr rfl)⟩

private def exHostListed : LoadedList := { text := cs%"||a.com^", rules := [{ anchor := .host, text := cs%"a.com^" }] }

/-- a program that loads the rule `||a.com^` and asks which rule applies to an address of `a.com` -/
example (E : Env) (hE : FixedBlooms E) (hb : ModerateBlooms E) : ∃ as w,
    ({} : NodeWorld E).run [.new, .call 0 (.parse (.string cs%"||a.com^") false)] = .ok (as, w) ∧
    w.step (.find 0 (.string cs%"http://a.com/-ad.png") FOScript (.string cs%"b.com")) = .ub .oobRead := by
  have web : (exPlace cs%"-ad.png").request.Web := exPlace_web (by decide)
  have hp : ∀ r ∈ exHostListed.rules.map TextRule.rule, plainRule r = true := by decide +kernel
  have safe : Spec.Comparable (exHostListed.rules.map TextRule.rule) (exPlace cs%"-ad.png").request :=
    (plainRules_askable (E := toyEnv) (fun _ => trivial) hp web).safe
  have ha : ∀ r ∈ exHostListed.rules.map TextRule.rule, r.AppliesTo [] (exPlace cs%"-ad.png").request := fun r hr =>
    (applies_compared (v := true) (hp r hr) web
      ((by decide +kernel : ∀ r ∈ exHostListed.rules.map TextRule.rule, (r.filter false).matches (exPlace cs%"-ad.png").request.url
        (resolveContext (exPlace cs%"-ad.png").request.url (exPlace cs%"-ad.png").request.context (exPlace cs%"-ad.png").request.domain)
        (exPlace cs%"-ad.png").request.domain none = .ok true) r hr)
      ((by decide +kernel : ∀ r ∈ exHostListed.rules.map TextRule.rule, (r.filter false).tag = []) r hr) []).2 rfl
  have ho : ∀ r ∈ exHostListed.rules.map TextRule.rule, r.HostOnly := by decide +kernel
  refine C75_find_counterexample E hE hb [.new, .load 0 exHostListed]
    ⟨trivial, ⟨{}, rfl, rfl, by decide, .rule (exHostListed.rules.map TextRule.rule)[0] .nil, plainRules_sound hp⟩, trivial⟩ 0 (exPlace cs%"-ad.png")
    ⟨_, rfl, rfl, web, safe, by decide, by decide, .inl ⟨?_, ?_⟩⟩
  · have hm : (exHostListed.rules.map TextRule.rule)[0] ∈ exHostListed.rules.map TextRule.rule := List.getElem_mem _
    exact ⟨_, hm, rfl, ⟨ho _ hm, fun _ => ⟨⟨[], [], rfl, by simp⟩, .inr (by decide +kernel)⟩⟩, ha _ hm⟩
  · rintro ⟨r, hr, -, hn, -⟩
    exact hn (ho r hr)

/-- the sample environment meets the assumptions -/
example : FixedBlooms byteEnv ∧ ModerateBlooms byteEnv := ⟨byteEnv_fixed, byteEnv_moderate⟩

end AdBlock
