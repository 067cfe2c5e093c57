import Verif.Props.ReportsText
import Verif.Props.Reread
import Verif.Model.NodeProgram
/-
`getFilters` after saved data have been loaded (C109).
-/
namespace AdBlock
open Spec

theorem deserializeFilters_hosts {n : Nat} {p q : Ptr} {fs : List Filter} (h : deserializeFilters n p = .ok (fs, q)) :
    ∀ f ∈ fs, f.host ≠ some [] := by
  induction n generalizing p fs with
  | zero => cases h; simp
  | succ n ih =>
    obtain ⟨⟨f, p1⟩, e1, h⟩ := Res.bind_eq_ok.1 h
    obtain ⟨⟨gs, p2⟩, e2, h⟩ := Res.bind_eq_ok.1 h
    cases h
    intro g hg
    rcases List.mem_cons.1 hg with rfl | hg
    · obtain ⟨sz, -, e1⟩ := Res.bind_eq_ok.1 e1
      obtain ⟨x, -, e1⟩ := Res.bind_eq_ok.1 e1
      obtain ⟨y, -, e1⟩ := Res.bind_eq_ok.1 e1
      obtain ⟨z, -, e1⟩ := Res.bind_eq_ok.1 e1
      obtain ⟨w, hw, e1⟩ := Res.bind_eq_ok.1 e1
      cases e1
      unfold takeString at hw
      obtain ⟨s, -, hw⟩ := Res.bind_eq_ok.1 hw
      cases hw
      show (if s = [] then none else some s) ≠ some []
      split
      · simp
      · simpa using ‹_›
    · exact ih e2 g hg

theorem readLists_hosts {ns : List Nat} {p q : Ptr} {ls : List (List Filter)} (h : readLists ns p = .ok (ls, q)) :
    ∀ l ∈ ls, ∀ f ∈ l, f.host ≠ some [] := by
  induction ns generalizing p ls with
  | nil => cases h; simp
  | cons n ns ih =>
    obtain ⟨⟨l, p1⟩, e1, h⟩ := Res.bind_eq_ok.1 h
    obtain ⟨⟨ms, p2⟩, e2, h⟩ := Res.bind_eq_ok.1 h
    cases h
    intro m hm
    rcases List.mem_cons.1 hm with rfl | hm
    · exact deserializeFilters_hosts e1
    · exact ih e2 m hm

/-- rules read from data have no empty host -/
theorem deserialize_hosts {E : Env} {c d : Client E} {buffer : Ptr} (h : c.deserialize buffer = .ok (some d)) :
    ∀ id, ∀ f ∈ d.lists id, f.host ≠ some [] := by
  unfold Client.deserialize at h
  obtain ⟨sz, -, h⟩ := Res.bind_eq_ok.1 h
  obtain ⟨v, -, h⟩ := Res.bind_eq_ok.1 h
  obtain ⟨⟨ls, p⟩, e, h⟩ := Res.bind_eq_ok.1 h
  obtain ⟨b1, -, h⟩ := Res.bind_eq_ok.1 h
  obtain ⟨b2, -, h⟩ := Res.bind_eq_ok.1 h
  obtain ⟨h1, -, h⟩ := Res.bind_eq_ok.1 h
  cases h1 with
  | none => cases h
  | some h1 =>
    obtain ⟨h2, -, h⟩ := Res.bind_eq_ok.1 h
    cases h2 with
    | none => cases h
    | some h2 =>
      obtain ⟨ts, -, h⟩ := Res.bind_eq_ok.1 h
      cases ts with
      | none => cases h
      | some ts =>
        cases h
        intro id f hf
        have hp := readLists_hosts e
        simp only [List.getD] at hf
        cases hl : ls[id.index]? with
        | none => rw [hl] at hf; cases hf
        | some l => rw [hl] at hf; exact hp l (List.mem_of_getElem? hl) f hf

/-- what describes a rule read from data describes the rule that was written -/
theorem describes_same {f g : Filter} (h : SameRule f g) (hh : g.host ≠ some []) {p : Report} (hd : Describes g p) : Describes f p := by
  have hp : OnlyPositive g ↔ OnlyPositive f := by unfold OnlyPositive; rw [h.domainList]
  have hn : OnlyNegative g ↔ OnlyNegative f := by unfold OnlyNegative; rw [h.domainList]
  have hdl := h.domainList
  have hk := h.kind
  have hhost := h.host
  refine ⟨fun pat ht => hd.text pat (h.text pat ht), fun ht => hd.noText (h.noText ht), fun x hx => ?_, fun hx => ?_, ?_, ?_, ?_, ?_, ?_, ?_, ?_⟩
  · rw [hx] at hhost
    cases hg : g.host with
    | none =>
      rw [hg] at hhost
      exact .inr ⟨hhost.symm, hd.noHost hg⟩
    | some y =>
      rw [hg] at hhost
      have e : y = x := hhost
      rw [← e]
      exact hd.host y hg
  · rw [hx] at hhost
    cases hg : g.host with
    | none => exact hd.noHost hg
    | some y =>
      rw [hg] at hhost
      have e : y = [] := hhost
      exact absurd (e ▸ hg) hh
  · rw [hd.domainList, hdl]
  · rw [hd.antiDomainList, hdl]
  · rw [hd.isDomainOnlyFilter, hp, hk]
  · rw [hd.isAntiDomainOnlyFilter, hn, hk]
  · rw [hd.isDomainOnlyExceptionFilter, hp, hk]
  · rw [hd.isAntiDomainOnlyExceptionFilter, hn, hk]
  · rw [hd.tag, h.tag]

/-- what describes what is read back of a rule describes the rule, if its list of domains survives -/
theorem describes_reread {f : Filter} (hf : ∀ dl, f.domainList = some dl → dl ≠ [] ∧ (f.tag = [] → ¬ bs%"~#" <+: dl)) {p : Report}
    (hd : Describes (rereadRule f) p) : Describes f p := by
  have hl : ¬ LooksTagged f := by
    rintro ⟨ht, hp⟩
    cases e : f.domainList with
    | none => simp [e] at hp
    | some dl => rw [e] at hp; exact (hf dl e).2 ht hp
  have ht : (rereadRule f).tag = f.tag := by
    show rereadTag f = _
    unfold rereadTag
    rw [if_neg hl]
  have hdl : (rereadRule f).domainList = f.domainList := by
    show (if rereadDomains f = [] then none else some (rereadDomains f)) = _
    unfold rereadDomains
    rw [if_neg hl]
    cases e : f.domainList with
    | none => rfl
    | some dl => exact if_neg (hf dl e).1
  have hp : OnlyPositive (rereadRule f) ↔ OnlyPositive f := by unfold OnlyPositive; rw [hdl]
  have hn : OnlyNegative (rereadRule f) ↔ OnlyNegative f := by unfold OnlyNegative; rw [hdl]
  refine ⟨fun pat h => ?_, fun h => hd.noText (by simp [rereadRule, h]), hd.host, hd.noHost, by rw [hd.domainList, hdl], by rw [hd.antiDomainList, hdl],
    by rw [hd.isDomainOnlyFilter, hp]; rfl, by rw [hd.isAntiDomainOnlyFilter, hn]; rfl, by rw [hd.isDomainOnlyExceptionFilter, hp]; rfl,
    by rw [hd.isAntiDomainOnlyExceptionFilter, hn]; rfl, hd.tag.trans ht⟩
  obtain ⟨d1, d2⟩ := rereadRule_data (.inr h)
  by_cases he : pat = []
  · exact .inr ⟨he, hd.noText (d1 he)⟩
  · exact hd.text pat ⟨h.1, by rw [d2 he]; exact h.2.1, h.2.2⟩

open Classical in
/-- the rules in an array of the program -/
theorem under_list {E : Env} {c : Client E} {fs : List Filter} (hist : History E c fs) (id : ListId) :
    (fs.filter fun f => decide (Under E.bad (nameOf id) f)) = c.lists id := by
  have hh := history_holds hist
  have e : c.lists id = fs.filter _ := hh.index.arr id
  rw [e]
  apply List.filter_congr
  intro f hf
  rw [decide_eq_decide, under_iff (hh.index.parsed f hf) (hh.index.classified f hf)]
  constructor
  · rintro ⟨id', h1, h2⟩
    rw [listOfName_nameOf] at h1
    cases h1
    exact h2
  · exact fun h => ⟨id, listOfName_nameOf id, h⟩

/-- `getFilters` of a client that has just read data -/
theorem getFilters_read {E : Env} {c d : Client E} {ic ih : Bool} (hs : ∀ id, ∀ f ∈ c.lists id, CleanRule f) (h : SameClient ic ih (rereadClient c) d)
    (hh : ∀ id, ∀ f ∈ d.lists id, f.host ≠ some []) (id : ListId) :
    ∃ ps w', ({ client := d } : NodeClient E).getFilters (nameOf id) = .ok (ps, w') ∧
      Pointwise (fun f p => Describes (rereadRule f) p) (kept ic ih c id) ps := by
  have hk : kept ic ih (rereadClient c) id = (kept ic ih c id).map rereadRule := by
    unfold kept
    split
    · rfl
    · rfl
  have hl := h.lists id
  rw [hk] at hl
  have hsub : ∀ f ∈ kept ic ih c id, f ∈ c.lists id := by
    intro f hf
    unfold kept at hf
    split at hf
    · cases hf
    · exact hf
  have hclean : ∀ f ∈ c.lists id, CleanStrings (rereadRule f) := fun f hf =>
    have := rereadEntry_clean (hs id f hf).toCleanStrings
    ⟨this.tag, this.domains, this.host⟩
  have back : ∀ g ∈ d.lists id, ∃ f ∈ c.lists id, SameRule (rereadRule f) g := by
    intro g hg
    obtain ⟨f', hf', hfg⟩ := Pointwise.mem_right hl hg
    obtain ⟨f, hf, rfl⟩ := List.mem_map.1 hf'
    exact ⟨f, hsub f hf, hfg⟩
  obtain ⟨rs, h1, h2, -, -⟩ := reportFilters_eq (hl := fun _ => none) (l := d.lists id) (i := 0)
    (fun g hg => by
      obtain ⟨f, hf, hfg⟩ := back g hg
      rcases (hs id f hf).text with h | ⟨pat, h⟩
      · exact .inl (hfg.noText (by simp [rereadRule, h]))
      · obtain ⟨d1, d2⟩ := rereadRule_data (.inr h)
        by_cases he : pat = []
        · exact .inl (hfg.noText (d1 he))
        · exact .inr ⟨pat, hfg.text pat ⟨h.1, by rw [d2 he]; exact h.2.1, h.2.2⟩⟩)
    (fun g hg => by
      obtain ⟨f, hf, hfg⟩ := back g hg
      have hc := hclean f hf
      refine ⟨by rw [hfg.tag]; exact hc.tag, fun dl e => hc.domains dl (by rw [← hfg.domainList]; exact e), fun x hx => ?_⟩
      have := hfg.host
      rw [hx] at this
      cases hr : (rereadRule f).host with
      | none => rw [hr] at this; have e : x = [] := this; rw [e]; simp
      | some y => rw [hr] at this; have e : x = y := this; rw [e]; exact hc.host y hr)
    (fun k g hg => .inl rfl)
  have hg : ({ client := d } : NodeClient E).getFilters (nameOf id) = .ok (rs.map (·.1), {
      client := { d with lists := fun i => if i = id then rs.map (·.2.1) else d.lists i }
      hostLen := fun i k => if i = id then (match rs[k]? with | some r => r.2.2 | none => none) else none }) := by
    unfold NodeClient.getFilters
    rw [listOfName_nameOf]
    simp only
    rw [h1]
    rfl
  refine ⟨_, _, hg, ?_⟩
  have h3 : Pointwise (fun f g => SameRule (rereadRule f) g ∧ g.host ≠ some []) (kept ic ih c id) (d.lists id) := by
    have : ∀ (l : List Filter) (m : List Filter), Pointwise SameRule (l.map rereadRule) m → (∀ g ∈ m, g.host ≠ some []) →
        Pointwise (fun f g => SameRule (rereadRule f) g ∧ g.host ≠ some []) l m := by
      intro l
      induction l with
      | nil => intro m h _; cases h; exact .nil
      | cons a l ih =>
        intro m h hm
        cases h with
        | cons h h' => exact .cons ⟨h, hm _ (.head _)⟩ (ih _ h' fun g hg => hm g (.tail _ hg))
    exact this _ _ hl (hh id)
  exact pointwise_comp (T := fun f p => Describes (rereadRule f) p) (fun f g p hfg (hd : Describes g p) => describes_same hfg.1 hfg.2 hd) h3 h2

/-- the stored lengths make no difference to the data -/
theorem serialize_lengths {E : Env} {c d : Client E} (h : SameButLengths c d) (hc : WrittenClient c) (ic ih : Bool) :
    d.serialize ic ih = c.serialize ic ih := by
  obtain ⟨L, rfl, hm⟩ := h
  have hs : ∀ id, Pointwise SameRule (c.lists id) (L id) := fun id => by
    have : ∀ {l m : List Filter}, Pointwise Memo l m → Pointwise SameRule l m := by
      intro l m h
      induction h with
      | nil => exact .nil
      | cons h _ ih =>
        obtain ⟨f1, f2, f3, f4, f5, f6, f7, f8⟩ := h.fields
        exact .cons ⟨⟨f2, f3, f4, f7, f6, by rw [f8]⟩, fun e => f5.trans e, fun pat hp => h.text hp⟩ ih
    exact this (hm id)
  have hnet : SameNetwork c { c with lists := L } :=
    { lists := fun id _ => hs id
      pageRules := fun id => ⟨_, List.suffix_refl _, hs id⟩
      numHostAnchoredFilters := rfl
      numHostAnchoredExceptionFilters := rfl
      bloom := rfl
      exceptionBloom := rfl
      hostSet := (network_refl c).hostSet
      hostExceptionSet := (network_refl c).hostExceptionSet
      domSets := (network_refl c).domSets }
  obtain ⟨h1, h2⟩ := network_bytes (ic := ic) (ih := ih) hnet hc fun id => by
    cases id <;> simp only [Client.storedList] <;> try exact hs _
    all_goals
      split
      · exact .nil
      · exact hs _
  rw [serialize_eq h1, serialize_eq hc, h2]

open Classical in
/-- What `getFilters` reports after saved data have been loaded, for all rules: under each name the rules that were under
the name, as they are read back (see C35), except for those about the contents of pages, if they are left out. -/
theorem C109_exact {E : Env} {c : Client E} {fs : List Filter} (hist : History E c fs) {w : Client E} (hw : SameButLengths c w) {ic ih : Bool}
    (hn : w.numHostAnchoredFilters < 2 ^ 31 ∧ w.numHostAnchoredExceptionFilters < 2 ^ 31) :
    ∃ s, w.serialize ic ih = .ok s ∧ (s.totalSize < 2 ^ 31 → ∀ (d : Client E) (q : Bytes), ∃ d', d.deserialize (s.buffer ++ q) = .ok (some d') ∧
      ∀ name, ∃ ps w', ({ client := d' } : NodeClient E).getFilters name = .ok (ps, w') ∧ Pointwise (fun f p => Describes (rereadRule f) p)
        (if ic = true ∧ name = bs%"cosmeticFilters" ∨ ih = true ∧ name = bs%"htmlFilters" then [] else fs.filter fun f => Under E.bad name f) ps) := by
  have hn' : c.numHostAnchoredFilters < 2 ^ 31 ∧ c.numHostAnchoredExceptionFilters < 2 ^ 31 := by
    obtain ⟨L, rfl, -⟩ := hw
    exact hn
  refine ⟨_, (serialize_lengths hw (history_written hist) ic ih).trans (serialize_eq (history_written hist) ic ih), fun hsize d q => ?_⟩
  obtain ⟨d', h1, h2, -⟩ := history_reread hist hn' hsize d q
  refine ⟨d', h1, fun name => ?_⟩
  have hh := history_holds hist
  cases hl : listOfName name with
  | none =>
    refine ⟨[], { client := d' }, by unfold NodeClient.getFilters; rw [hl]; rfl, ?_⟩
    have : (fs.filter fun f => decide (Under E.bad name f)) = [] := by
      rw [List.filter_eq_nil_iff]
      intro f hf hu
      rw [decide_eq_true_eq, under_iff (hh.index.parsed f hf) (hh.index.classified f hf)] at hu
      obtain ⟨id, hid, _⟩ := hu
      rw [hl] at hid
      cases hid
    rw [this, ite_self]
    exact .nil
  | some id =>
    obtain ⟨ps, w', h3, h4⟩ := getFilters_read (history_sane hist).rules h2 (deserialize_hosts h1) id
    rw [listOfName_some hl]
    refine ⟨ps, w', h3, ?_⟩
    rw [under_list hist]
    unfold kept at h4
    have e : (ic = true ∧ nameOf id = bs%"cosmeticFilters" ∨ ih = true ∧ nameOf id = bs%"htmlFilters") ↔
        (ic = true ∧ id = .cosmetic ∨ ih = true ∧ id = .html) := by
      have e1 : nameOf id = bs%"cosmeticFilters" ↔ id = .cosmetic := by cases id <;> decide
      have e2 : nameOf id = bs%"htmlFilters" ↔ id = .html := by cases id <;> decide
      rw [e1, e2]
    by_cases hx : ic = true ∧ id = .cosmetic ∨ ih = true ∧ id = .html
    · rw [if_pos hx] at h4
      rw [if_pos (e.2 hx)]
      exact h4
    · rw [if_neg hx] at h4
      rw [if_neg fun h => hx (e.1 h)]
      exact h4

open Classical in
/-- **C109**, except for rules whose list of domains does not survive: after any calls on a new client which load lists of
rules, comments and lines about the contents of pages, the client can be saved, and a client which loads the data
reports under each name the rules of the lists which are of the kind named, in the order in which they are
written, with the text, the host, the domains and the tag which they have there.  It reports nothing about the contents of
pages. -/
theorem C109_reports_partial {E : Env} {ops : List NodeOp} {as : List NodeAnswer} {w : NodeClient E}
    (h : nodeRun { client := Client.fresh E } ops = .ok (as, w)) {rs : List RuleText} {ls : List PageText} (hw : CallsLoad E.bad ops rs ls)
    (hn : w.client.numHostAnchoredFilters < 2 ^ 31 ∧ w.client.numHostAnchoredExceptionFilters < 2 ^ 31) :
    ∃ data, w.client.jsSerialize = .ok data ∧ (data.length < 2 ^ 31 → ∀ d : Client E, ∃ d', d.jsDeserialize (.buffer data) = .ok (.ok d') ∧
      (∀ name, name ≠ bs%"cosmeticFilters" ∧ name ≠ bs%"htmlFilters" → ∃ ps w', ({ client := d' } : NodeClient E).getFilters name = .ok (ps, w') ∧
        Pointwise (fun r p => r.SavableDomains → ReportsRule r p) (rs.filter fun r => SortedUnder E.bad name r) ps) ∧
      ∀ name ∈ [bs%"cosmeticFilters", bs%"htmlFilters"], ∃ w', ({ client := d' } : NodeClient E).getFilters name = .ok ([], w')) := by
  have h0 := written_noNul hw
  obtain ⟨as', c, fs', h1, -, h1'⟩ := nodeRun_inv (w := { client := Client.fresh E }) ⟨SameButLengths.refl _, fun _ _ _ h => nomatch h⟩ History.new h0 h
  obtain ⟨fs, h2, h3⟩ := written_history hw h1
  obtain ⟨s, h4, h5⟩ := C109_exact (ic := true) (ih := true) h2 h1'.same hn
  have hlen : s.totalSize = s.buffer.length := by
    have := (serialize_lengths h1'.same (history_written h2) true true).trans (serialize_eq (history_written h2) true true)
    rw [h4] at this
    cases this
    rfl
  refine ⟨s.buffer, by unfold Client.jsSerialize; rw [h4]; rfl, fun hd d => ?_⟩
  obtain ⟨d', h6, h7⟩ := h5 (by rw [hlen]; exact hd) d []
  rw [List.append_nil] at h6
  refine ⟨d', by simp only [Client.jsDeserialize]; rw [h6]; rfl, fun name hname => ?_, fun name hname => ?_⟩
  · obtain ⟨ps, w', h8, h9⟩ := h7 name
    rw [if_neg (by simp [hname])] at h9
    refine ⟨ps, w', h8, ?_⟩
    exact pointwise_comp (T := fun r p => r.SavableDomains → ReportsRule r p) (fun r f p hf hd hs => by
        obtain ⟨pr, rfl, hw⟩ := hf
        refine shows_of hw (pr := pr) (describes_reread (fun dl e => ?_) hd)
        rw [show (r.filter pr).domainList = r.value bs%"domain=" from opts_domainList hw] at e
        rw [show (r.filter pr).tag = (r.value bs%"tag=").getD [] from opts_tag hw]
        exact hs dl e)
      (readAs_filter (fun f hf => under_kind hname hf) (fun r pr hw => under_sorted hname r pr hw) h3) h9
  · obtain ⟨ps, w', h8, h9⟩ := h7 name
    rw [if_pos (by simpa using hname)] at h9
    cases h9
    exact ⟨w', h8⟩

/-! ### rules whose list of domains does not survive -/

/-- the client that has loaded the list can be saved -/
private def savedCheck (text : Bytes) : Bool :=
  match (Client.fresh toyEnv).parse text false with
  | .ub _ => false
  | .ok c => decide ((c.bytes true true).length < 100000 ∧ c.numHostAnchoredFilters = 0 ∧ c.numHostAnchoredExceptionFilters = 0)

/-- `getFilters` of a client that has loaded the data of one that has loaded the list reports `p` only -/
def ReportedAfterSaving (text name : Bytes) (p : Report) : Prop :=
  ∃ (w : NodeClient toyEnv) (data : Bytes) (d : Client toyEnv) (w' : NodeClient toyEnv),
    nodeRun { client := Client.fresh toyEnv } (pageOps text) = .ok ([.op .done], w) ∧ w.client.jsSerialize = .ok data ∧
    (Client.fresh toyEnv).jsDeserialize (.buffer data) = .ok (.ok d) ∧
    ({ client := d } : NodeClient toyEnv).getFilters name = .ok ([p], w')

private theorem saved_report {text : Bytes} {f : Filter} {id : ListId} (h0 : 0 ∉ text) (hr : Reads toyEnv.bad false (lines text) [f])
    (hu : classify toyEnv.bad f = .ok (.list id)) (hid : id ≠ .cosmetic ∧ id ≠ .html) (hck : savedCheck text = true) :
    ∃ p, ReportedAfterSaving text (nameOf id) p ∧ Describes (rereadRule f) p := by
  unfold savedCheck at hck
  cases hp : (Client.fresh toyEnv).parse text false with
  | ub u => rw [hp] at hck; cases hck
  | ok c =>
    rw [hp] at hck
    obtain ⟨k1, k2, k3⟩ := of_decide_eq_true hck
    have hist : History toyEnv c ([] ++ [f]) := .parse .new h0 hp hr
    obtain ⟨s, e, h⟩ := C109_exact (ic := true) (ih := true) hist (SameButLengths.refl c) (by omega)
    have hw := serialize_eq (history_written hist) true true
    have hsize : s.totalSize < 2 ^ 31 := by
      rw [e] at hw
      cases hw
      show (c.bytes true true).length < 2 ^ 31
      omega
    obtain ⟨d, h1, h2⟩ := h hsize (Client.fresh toyEnv) []
    rw [List.append_nil] at h1
    obtain ⟨ps, w', h3, h4⟩ := h2 (nameOf id)
    have hh := history_holds hist
    rw [if_neg (by obtain ⟨a, b⟩ := hid; revert a b; cases id <;> decide), under_list hist,
      show c.lists id = _ from hh.index.arr id, List.nil_append, List.filter_cons_of_pos (by simpa using hu)] at h4
    cases h4 with
    | @cons _ p _ _ h5 h6 =>
      cases h6
      refine ⟨p, ⟨{ client := c }, s.buffer, d, w', ?_, ?_, ?_, h3⟩, h5⟩
      · show nodeRun { client := Client.fresh toyEnv } [.op (.parse text false)] = _
        simp only [nodeRun, nodeStep, step]
        rw [hp]
        rfl
      · unfold Client.jsSerialize
        rw [e]
        rfl
      · simp only [Client.jsDeserialize]
        rw [h1]
        rfl

/-- The full statement of **C109** is false: a rule whose list of domains begins with `~#` is reported with a tag. -/
theorem C109_tag_counterexample : ∃ (text : Bytes) (r : RuleText) (p : Report), r.WellFormed ∧ (∀ bad, SoundList bad [r]) ∧ lines text = [r.line] ∧
    ReportedAfterSaving text bs%"filters" p ∧ p.tag = bs%"x|a.com" ∧ ¬ ReportsRule r p := by
  obtain ⟨p, h1, h2⟩ := saved_report (text := bs%"adbanner$domain=~#x|a.com") (id := .filters)
    (f := { data := some (cstr bs%"adbanner"), domainList := some bs%"~#x|a.com" }) (by decide +kernel)
    (by
      rw [show lines bs%"adbanner$domain=~#x|a.com" = [bs%"adbanner$domain=~#x|a.com"] by decide +kernel]
      exact .cons (e := .addFingerprint bs%"adbann") (by decide +kernel) .nil)
    (by decide +kernel) (by decide) (by decide +kernel)
  have ht : p.tag = bs%"x|a.com" := h2.tag.trans (by decide +kernel)
  refine ⟨bs%"adbanner$domain=~#x|a.com", { text := bs%"adbanner", options := some bs%"domain=~#x|a.com" }, p, ?_, fun bad => plainRules_sound (by decide +kernel),
    by decide +kernel, h1, ht, fun h => ?_⟩
  · exact (plainRules_sound (bad := []) (rs := [{ text := bs%"adbanner", options := some bs%"domain=~#x|a.com" }]) (by decide +kernel)).wellFormed _ (by simp)
  · have := h.tag
    rw [ht] at this
    exact absurd this (by decide +kernel)

/-- Also a rule with an empty list of domains: it is not reported any more to be for listed domains only. -/
theorem C109_no_domain_counterexample : ∃ (text : Bytes) (r : RuleText) (p : Report), r.WellFormed ∧ (∀ bad, SoundList bad [r]) ∧ lines text = [r.line] ∧
    ReportedAfterSaving text bs%"filters" p ∧ p.isDomainOnlyFilter = false ∧ ¬ ReportsRule r p := by
  obtain ⟨p, h1, h2⟩ := saved_report (text := bs%"adbanner$domain=") (id := .filters)
    (f := { data := some (cstr bs%"adbanner"), domainList := some [] }) (by decide +kernel)
    (by
      rw [show lines bs%"adbanner$domain=" = [bs%"adbanner$domain="] by decide +kernel]
      exact .cons (e := .addFingerprint bs%"adbann") (by decide +kernel) .nil)
    (by decide +kernel) (by decide) (by decide +kernel)
  have hf : p.isDomainOnlyFilter = false := by
    rw [← Bool.not_eq_true, h2.isDomainOnlyFilter]
    rintro ⟨⟨dl, h, -⟩, -⟩
    revert h
    simp [rereadRule, rereadEntry, rereadDomains, LooksTagged]
  refine ⟨bs%"adbanner$domain=", { text := bs%"adbanner", options := some bs%"domain=" }, p, ?_, fun bad => plainRules_sound (by decide +kernel),
    by decide +kernel, h1, hf, fun h => ?_⟩
  · exact (plainRules_sound (bad := []) (rs := [{ text := bs%"adbanner", options := some bs%"domain=" }]) (by decide +kernel)).wellFormed _ (by simp)
  · have := h.domainOnly.2 ⟨rfl, [], by decide +kernel, by decide +kernel⟩
    rw [hf] at this
    cases this

/-- The theorem is not empty: a rule with a tag and a list of domains, and what it is reported as. -/
example : ∃ p, ReportedAfterSaving bs%"&b=$domain=~x.com,tag=t" bs%"noFingerprintAntiDomainOnlyFilters" p ∧
    p.antiDomainList = [bs%"x.com"] ∧ p.tag = bs%"t" ∧ p.data = some bs%"&b=" := by
  obtain ⟨p, h1, h2⟩ := saved_report (text := bs%"&b=$domain=~x.com,tag=t") (id := .noFpAntiDomain)
    (f := { data := some (cstr bs%"&b="), domainList := some bs%"~x.com", tag := bs%"t" }) (by decide +kernel)
    (by
      rw [show lines bs%"&b=$domain=~x.com,tag=t" = [bs%"&b=$domain=~x.com,tag=t"] by decide +kernel]
      exact .cons (e := .none) (by decide +kernel) .nil)
    (by decide +kernel) (by decide) (by decide +kernel)
  refine ⟨p, h1, h2.antiDomainList.trans (by decide +kernel), h2.tag.trans (by decide +kernel), ?_⟩
  rcases h2.text bs%"&b=" ⟨by decide, ⟨[], by decide +kernel⟩, .inl (by decide +kernel)⟩ with h | h
  · exact h
  · cases h.1

end AdBlock
