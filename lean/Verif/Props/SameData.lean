import Verif.Props.NodeApi
import Verif.Props.Saved
import Verif.Props.RuleLaws
import Verif.Props.NodeArgsExact
/-
C110: clients which write the same data.
-/
namespace AdBlock
open Spec

/-- what two outcomes have in common if a third one is the same as either -/
theorem sameReport_options {f g h : Filter} (h1 : SameReport f h) (h2 : SameReport g h) : SameOptions f g := by
  have e1 : SameOptions f h := h1.elim (·.toSameOptions) (·.1.toSameOptions)
  have e2 : SameOptions g h := h2.elim (·.toSameOptions) (·.1.toSameOptions)
  exact ⟨e2.kind.symm.trans e1.kind, e2.options.symm.trans e1.options, e2.antiOptions.symm.trans e1.antiOptions, e2.tag.symm.trans e1.tag,
    e2.domainList.symm.trans e1.domainList, e2.host.symm.trans e1.host⟩

theorem samePointer_options {a b c : Option Filter} (h1 : SamePointer SameReport a c) (h2 : SamePointer SameReport b c) :
    SamePointer SameOptions a b := by
  cases h1 with
  | null => cases h2; exact .null
  | some h1 => cases h2 with
    | some h2 => exact .some (sameReport_options h1 h2)

/-- **C110**, for rules which the data can represent (see C35): two clients which write the same data, whatever has been done
with them before, answer all requests alike, if the same tags are enabled, and name rules with the same options, tags, domains and hosts. -/
theorem C110_answers_partial {E : Env} {c d : Client E} {fs gs : List Filter} (hc : History E c fs) (hd : History E d gs) {ic ih : Bool}
    (hrc : ∀ f ∈ fs, LeftOut ic ih f ∨ Representable f) (hrd : ∀ f ∈ gs, LeftOut ic ih f ∨ Representable f)
    (hnc : c.numHostAnchoredFilters < 2 ^ 31 ∧ c.numHostAnchoredExceptionFilters < 2 ^ 31)
    (hnd : d.numHostAnchoredFilters < 2 ^ 31 ∧ d.numHostAnchoredExceptionFilters < 2 ^ 31)
    {s t : Serialized} (hs : c.serialize ic ih = .ok s) (ht : d.serialize ic ih = .ok t) (he : s.buffer = t.buffer) (hsize : s.buffer.length < 2 ^ 31)
    (htags : ∀ tag, tag ∈ c.tags ↔ tag ∈ d.tags) (url : Bytes) (h0 : 0 ∉ url) (ctx : Mask) (dom : Option Bytes) :
    (∀ o o', c.query url ctx dom = .ok o → d.query url ctx dom = .ok o' →
      o.block = o'.block ∧ SamePointer SameOptions o.filter o'.filter ∧ SamePointer SameOptions o.exception o'.exception) ∧
    (∀ o o', c.findMatchingFilters url ctx dom = .ok o → d.findMatchingFilters url ctx dom = .ok o' →
      o.block = o'.block ∧ SamePointer SameOptions o.filter o'.filter ∧ SamePointer SameOptions o.exception o'.exception) := by
  obtain ⟨s', hs', h1⟩ := C37_round_trip_partial hc hrc hnc
  obtain ⟨t', ht', h2⟩ := C37_round_trip_partial hd hrd hnd
  rw [hs] at hs'
  rw [ht] at ht'
  cases hs'
  cases ht'
  have es := serialize_eq (history_written hc) ic ih
  have et := serialize_eq (history_written hd) ic ih
  rw [hs] at es
  rw [ht] at et
  cases es
  cases et
  obtain ⟨x, hx, -, h1⟩ := h1 hsize c []
  obtain ⟨y, hy, -, h2⟩ := h2 (show (d.bytes ic ih).length < 2 ^ 31 from congrArg List.length he ▸ hsize) c []
  rw [← he, hx] at hy
  cases hy
  have h1 := h1 (fun _ => Iff.rfl) url ctx dom h0
  have h2 := h2 htags url ctx dom h0
  refine ⟨fun o o' ho ho' => ?_, fun o o' ho ho' => ?_⟩
  · obtain ⟨r, e1, r1⟩ := h1.1 o ho
    obtain ⟨r', e2, r2⟩ := h2.1 o' ho'
    rw [e1] at e2
    cases e2
    exact ⟨r1.block.symm.trans r2.block, samePointer_options r1.filter r2.filter, samePointer_options r1.exception r2.exception⟩
  · obtain ⟨r, e1, r1⟩ := h1.2 o ho
    obtain ⟨r', e2, r2⟩ := h2.2 o' ho'
    rw [e1] at e2
    cases e2
    exact ⟨r1.block.symm.trans r2.block, samePointer_options r1.filter r2.filter, samePointer_options r1.exception r2.exception⟩

/-- **C110**: such clients report the same numbers of rules, without any restriction on the rules, except for those which hide elements, if they
are left out of the data. -/
theorem C110_statistics {E : Env} {c d : Client E} {fs gs : List Filter} (hc : History E c fs) (hd : History E d gs) {ic ih : Bool}
    (hnc : c.numHostAnchoredFilters < 2 ^ 31 ∧ c.numHostAnchoredExceptionFilters < 2 ^ 31)
    (hnd : d.numHostAnchoredFilters < 2 ^ 31 ∧ d.numHostAnchoredExceptionFilters < 2 ^ 31)
    {s t : Serialized} (hs : c.serialize ic ih = .ok s) (ht : d.serialize ic ih = .ok t) (he : s.buffer = t.buffer) (hsize : s.buffer.length < 2 ^ 31) :
    { c.getParsingStats with numCosmeticFilters := 0 } = { d.getParsingStats with numCosmeticFilters := 0 } ∧
    (ic = false → c.getParsingStats = d.getParsingStats) := by
  obtain ⟨s', hs', h1⟩ := C71_reloaded hc (ic := ic) (ih := ih) hnc
  obtain ⟨t', ht', h2⟩ := C71_reloaded hd (ic := ic) (ih := ih) hnd
  rw [hs] at hs'
  rw [ht] at ht'
  cases hs'
  cases ht'
  have es := serialize_eq (history_written hc) ic ih
  have et := serialize_eq (history_written hd) ic ih
  rw [hs] at es
  rw [ht] at et
  cases es
  cases et
  obtain ⟨x, hx, h1⟩ := h1 hsize c []
  obtain ⟨y, hy, h2⟩ := h2 (show (d.bytes ic ih).length < 2 ^ 31 from congrArg List.length he ▸ hsize) c []
  rw [← he, hx] at hy
  cases hy
  have e := h1.symm.trans h2
  refine ⟨?_, fun hic => ?_⟩
  · have := congrArg (fun p : ParsingStats => { p with numCosmeticFilters := 0 }) e
    exact this
  · subst hic
    rw [if_neg (by decide), if_neg (by decide), ← (C71_numbers hc).2.1, ← (C71_numbers hd).2.1] at e
    exact e

/-- A new client which loads the list writes these data, as they are written from Node. -/
def SavedAs (E : Env) (input data : Bytes) : Prop :=
  ∃ c s, (Client.fresh E).parse input false = .ok c ∧ c.serialize true true = .ok s ∧ s.buffer = data

theorem addTags_bytes {E : Env} (c : Client E) (tags : List Bytes) (ic ih : Bool) : (c.addTags tags).bytes ic ih = c.bytes ic ih := by
  unfold Client.addTags
  induction tags generalizing c with
  | nil => rfl
  | cons t tags ih =>
    refine (ih (c.addTag t)).trans ?_
    unfold Client.addTag
    split <;> rfl

/-- what is known about a client which has loaded a list that can be saved -/
theorem savable_loaded {E : Env} (hE : FixedBlooms E) {input : Bytes} {rs : List RuleText} (h : Lists E input rs) (hs : SavableList input rs)
    (hlen : input.length + 1 < 2 ^ 31) {c : Client E} (hc : (Client.fresh E).parse input false = .ok c) (tags : List Bytes) :
    ∃ fs, History E (c.addTags tags) fs ∧ (∀ f ∈ fs, LeftOut true true f ∨ Representable f) ∧
      ((c.addTags tags).numHostAnchoredFilters < 2 ^ 31 ∧ (c.addTags tags).numHostAnchoredExceptionFilters < 2 ^ 31) ∧
      (c.addTags tags).serialize true true = .ok ⟨c.bytes true true, (c.bytes true true).length, (c.bytes true true).length⟩ ∧
      c.serialize true true = .ok ⟨c.bytes true true, (c.bytes true true).length, (c.bytes true true).length⟩ := by
  obtain ⟨fs, g1, g2⟩ := savable_reads E.bad h.rules (fun l hl h' => h.noNul (mem_lines hl 0 h').1) h.sound.wellFormed hs.texts hs.domains hs.regex
    (fun l hl => Nat.lt_of_le_of_lt (line_length hl) hs.size) false
  have hist : History E c ([] ++ fs) := .parse .new h.noNul hc g1
  have hist' := addTags_history hist tags
  obtain ⟨-, k2, k3⟩ := parse_size hE hc
  have f2 : (Client.fresh E).numHostAnchoredFilters = 0 ∧ (Client.fresh E).numHostAnchoredExceptionFilters = 0 := ⟨rfl, rfl⟩
  obtain ⟨-, e2, e3⟩ := addTags_same c tags
  refine ⟨_, hist', g2, ⟨by omega, by omega⟩, ?_, serialize_eq (history_written hist) true true⟩
  rw [serialize_eq (history_written hist') true true, addTags_bytes]

/-- **C110**, for the text of lists: if new clients which have loaded two lists of rules that can be saved write the same data, they give the same
answers to all requests, whatever tags are enabled. -/
theorem C110_lists_partial {E : Env} (hE : FixedBlooms E) {input input' : Bytes} {rs rs' : List RuleText} (h : Lists E input rs) (h' : Lists E input' rs')
    (hs : SavableList input rs) (hs' : SavableList input' rs') (hlen : input.length + 1 < 2 ^ 31) (hlen' : input'.length + 1 < 2 ^ 31)
    {data : Bytes} (hd : SavedAs E input data) (hd' : SavedAs E input' data)
    (hsize : data.length < 2 ^ 31) (tags : List Bytes) {q : Request} (hq : Askable E rs q) (hq' : Askable E rs' q) :
    ∃ b, Answers E input false tags q b ∧ Answers E input' false tags q b := by
  obtain ⟨b, h1, -⟩ := answers_iff h false tags hq
  obtain ⟨b', h1', -⟩ := answers_iff h' false tags hq'
  refine ⟨b, h1, ?_⟩
  obtain ⟨c, e1, o, e2, e3⟩ := id h1
  obtain ⟨c', e1', o', e2', e3'⟩ := id h1'
  obtain ⟨x, s, k1, k2, k3⟩ := hd
  obtain ⟨x', s', k1', k2', k3'⟩ := hd'
  rw [e1] at k1
  rw [e1'] at k1'
  cases k1
  cases k1'
  obtain ⟨fs, m1, m2, m3, m4, m5⟩ := savable_loaded hE h hs hlen e1 tags
  obtain ⟨fs', m1', m2', m3', m4', m5'⟩ := savable_loaded hE h' hs' hlen' e1' tags
  rw [m5] at k2
  rw [m5'] at k2'
  cases k2
  cases k2'
  have := (C110_answers_partial m1 m1' m2 m2' m3 m3' m4 m4' (k3.trans k3'.symm) (k3 ▸ hsize) (fun t => by
    rw [mem_addTags, mem_addTags, parse_tags e1, parse_tags e1']) q.url (web_url hq.web).2.2 q.context q.domain).1 o o' e2 e2'
  rw [← e3, this.1, e3']
  exact h1'

/-- the client which has loaded a single rule with a fingerprint -/
def oneIndexed (E : Env) (f : Filter) (fp : Bytes) : Client E :=
  (Client.fresh E).finish (({} : Counts).bump (.list .filters)) { (Client.fresh E).startBuild with
    bloom := E.fp.add (Client.fresh E).startBuild.bloom fp
    arr := fun i => if i = .filters then (Client.fresh E).startBuild.arr i ++ [f] else (Client.fresh E).startBuild.arr i }

theorem parse_oneIndexed {E : Env} {text fp : Bytes} {f : Filter} (hl : lines text = [text]) (hp : parseFilter E.bad text 0 false true = .ok (f, .addFingerprint fp))
    (hc : classify E.bad f = .ok (.list .filters)) (h1 : lineClass E.bad (text, 0) = .ok (.list .filters)) :
    (Client.fresh E).parse text false = .ok (oneIndexed E f fp) := by
  refine parse_ok_iff.2 ⟨_, _, ?_, ?_, rfl⟩
  · rw [hl]
    show countPass E.bad [(text, 0)] {} = _
    rw [countPass_cons, h1]
    rfl
  · rw [hl]
    show fill E false [(text, 0)] _ = _
    simp only [fill, fillLine, hp, Res.bind_ok, Build.enter, Build.apply, Res.pure_eq, hc, Build.store, ListId.domId]

theorem oneIndexed_bytes {E : Env} {f g : Filter} (fp : Bytes) (h : arrayBytes [f] = arrayBytes [g]) : (oneIndexed E f fp).bytes true true = (oneIndexed E g fp).bytes true true := by
  have e : ∀ x : Filter, (oneIndexed E x fp).arrays true true = [[x], [], [], [], [], [], [], [], [], []] := fun _ => rfl
  have e1 : (oneIndexed E f fp).sections = (oneIndexed E g fp).sections := rfl
  unfold Client.bytes Client.header
  rw [e, e, e1]
  simp only [List.flatMap_cons, List.flatMap_nil, h, List.map_cons, List.map_nil, List.length_cons, List.length_nil]
  rfl

/-- The full statement of **C110** is false: data do not tell whether a list of domains is empty or absent. -/
theorem C110_counterexample : ∃ (c d : Client toyEnv) (s : Serialized), (Client.fresh toyEnv).parse bs%"adbanner$domain=" false = .ok c ∧
    (Client.fresh toyEnv).parse bs%"adbanner" false = .ok d ∧ c.serialize true true = .ok s ∧ d.serialize true true = .ok s ∧
    (∃ o, c.query bs%"http://b.com/adbanner" 0 (some bs%"a.com") = .ok o ∧ o.block = false) ∧
    ∃ o, d.query bs%"http://b.com/adbanner" 0 (some bs%"a.com") = .ok o ∧ o.block = true := by
  let f : Filter := { data := some (cstr bs%"adbanner"), domainList := some [] }
  let g : Filter := { data := some (cstr bs%"adbanner") }
  have hf : parseFilter toyEnv.bad bs%"adbanner$domain=" 0 false true = .ok (f, .addFingerprint bs%"adbann") := by decide +kernel
  have hg : parseFilter toyEnv.bad bs%"adbanner" 0 false true = .ok (g, .addFingerprint bs%"adbann") := by decide +kernel
  have h1 := parse_oneIndexed (E := toyEnv) (by decide +kernel) hf (by decide +kernel) (by decide +kernel)
  have h2 := parse_oneIndexed (E := toyEnv) (by decide +kernel) hg (by decide +kernel) (by decide +kernel)
  have r1 : Reads toyEnv.bad false (lines bs%"adbanner$domain=") [f] := by
    rw [show lines bs%"adbanner$domain=" = [bs%"adbanner$domain="] by decide +kernel]
    exact .cons hf .nil
  have r2 : Reads toyEnv.bad false (lines bs%"adbanner") [g] := by
    rw [show lines bs%"adbanner" = [bs%"adbanner"] by decide +kernel]
    exact .cons hg .nil
  have s1 := serialize_eq (history_written (.parse .new (by decide) h1 r1)) true true
  have s2 := serialize_eq (history_written (.parse .new (by decide) h2 r2)) true true
  rw [← oneIndexed_bytes (E := toyEnv) (f := f) (g := g) bs%"adbann" (by decide +kernel)] at s2
  have q1 : (fun o => o.block) <$> (oneIndexed toyEnv f bs%"adbann").query bs%"http://b.com/adbanner" 0 (some bs%"a.com") = .ok false := by decide +kernel
  have q2 : (fun o => o.block) <$> (oneIndexed toyEnv g bs%"adbann").query bs%"http://b.com/adbanner" 0 (some bs%"a.com") = .ok true := by decide +kernel
  obtain ⟨o, q1, e1⟩ := Res.map_eq_ok.1 q1
  obtain ⟨o', q2, e2⟩ := Res.map_eq_ok.1 q2
  exact ⟨_, _, _, h1, h2, s1, s2, ⟨o, q1, e1⟩, o', q2, e2⟩

/-- **C110**, an example: the order of options does not show in the data, nor in the answers. -/
example {q : Request} (hq : q.Web) (tags : List Bytes) : ∃ b, Answers byteEnv bs%"adbanner$third-party,script" false tags q b ∧
    Answers byteEnv bs%"adbanner$script,third-party" false tags q b := by
  let r : RuleText := { text := bs%"adbanner", options := some bs%"third-party,script" }
  let r' : RuleText := { text := bs%"adbanner", options := some bs%"script,third-party" }
  let f : Filter := { data := some (cstr bs%"adbanner"), filterOption := FOThirdParty ||| FOScript }
  have hp : ∀ x ∈ [r], plainRule x = true := by decide +kernel
  have hp' : ∀ x ∈ [r'], plainRule x = true := by decide +kernel
  have roll : ∀ url, byteEnv.fp.rolls url := fun _ => trivial
  have hf : parseFilter byteEnv.bad bs%"adbanner$third-party,script" 0 false true = .ok (f, .addFingerprint bs%"adbann") := by decide +kernel
  have hf' : parseFilter byteEnv.bad bs%"adbanner$script,third-party" 0 false true = .ok (f, .addFingerprint bs%"adbann") := by decide +kernel
  have h1 := parse_oneIndexed (E := byteEnv) (by decide +kernel) hf (by decide +kernel) (by decide +kernel)
  have h1' := parse_oneIndexed (E := byteEnv) (by decide +kernel) hf' (by decide +kernel) (by decide +kernel)
  have r1 : Reads byteEnv.bad false (lines bs%"adbanner$third-party,script") [f] := by
    rw [show lines bs%"adbanner$third-party,script" = [bs%"adbanner$third-party,script"] by decide +kernel]
    exact .cons hf .nil
  have s1 := serialize_eq (history_written (.parse .new (by decide) h1 r1)) true true
  have sav : ∀ (input : Bytes) (x : RuleText), x ∈ [r, r'] → input ∈ [bs%"adbanner$third-party,script", bs%"adbanner$script,third-party"] → SavableList input [x] := by
    intro input x hx hi
    refine ⟨fun y hy => ?_, fun y hy dl hdl => ?_, ?_, ?_⟩
    · rw [List.mem_singleton.1 hy]
      simp only [List.mem_cons, List.not_mem_nil, or_false] at hx
      rcases hx with rfl | rfl <;> decide
    · rw [List.mem_singleton.1 hy] at hdl
      simp only [List.mem_cons, List.not_mem_nil, or_false] at hx
      rcases hx with rfl | rfl
      · exact absurd ((show _ = none by decide +kernel).symm.trans hdl) (by simp)
      · exact absurd ((show _ = none by decide +kernel).symm.trans hdl) (by simp)
    · revert hi
      revert input
      decide +kernel
    · revert hi
      revert input
      decide +kernel
  refine C110_lists_partial byteEnv_fixed (lists_rules (plainRules_sound hp) (by simp)) (lists_rules (plainRules_sound hp') (by simp))
    (sav _ _ (by simp) (by decide +kernel)) (sav _ _ (by simp) (by decide +kernel)) (by decide +kernel) (by decide +kernel) (data := (oneIndexed byteEnv f bs%"adbann").bytes true true)
    ⟨_, _, h1, s1, rfl⟩ ⟨_, _, h1', s1, rfl⟩ ?_ tags (plainRules_askable roll hp hq) (plainRules_askable roll hp' hq)
  decide +kernel

/-- **C110**, another example: clients with a rule for no domain and one for all domains report the same numbers. -/
example : ∃ (c d : Client toyEnv), (Client.fresh toyEnv).parse bs%"adbanner$domain=" false = .ok c ∧
    (Client.fresh toyEnv).parse bs%"adbanner" false = .ok d ∧ { c.getParsingStats with numCosmeticFilters := 0 } = { d.getParsingStats with numCosmeticFilters := 0 } := by
  let f : Filter := { data := some (cstr bs%"adbanner"), domainList := some [] }
  let g : Filter := { data := some (cstr bs%"adbanner") }
  have hf : parseFilter toyEnv.bad bs%"adbanner$domain=" 0 false true = .ok (f, .addFingerprint bs%"adbann") := by decide +kernel
  have hg : parseFilter toyEnv.bad bs%"adbanner" 0 false true = .ok (g, .addFingerprint bs%"adbann") := by decide +kernel
  have h1 := parse_oneIndexed (E := toyEnv) (by decide +kernel) hf (by decide +kernel) (by decide +kernel)
  have h2 := parse_oneIndexed (E := toyEnv) (by decide +kernel) hg (by decide +kernel) (by decide +kernel)
  have r1 : Reads toyEnv.bad false (lines bs%"adbanner$domain=") [f] := by
    rw [show lines bs%"adbanner$domain=" = [bs%"adbanner$domain="] by decide +kernel]
    exact .cons hf .nil
  have r2 : Reads toyEnv.bad false (lines bs%"adbanner") [g] := by
    rw [show lines bs%"adbanner" = [bs%"adbanner"] by decide +kernel]
    exact .cons hg .nil
  have k1 : History toyEnv (oneIndexed toyEnv f bs%"adbann") ([] ++ [f]) := .parse .new (by decide) h1 r1
  have k2 : History toyEnv (oneIndexed toyEnv g bs%"adbann") ([] ++ [g]) := .parse .new (by decide) h2 r2
  exact ⟨_, _, h1, h2, (C110_statistics k1 k2 (by decide +kernel) (by decide +kernel) (serialize_eq (history_written k1) true true)
    (serialize_eq (history_written k2) true true) (oneIndexed_bytes bs%"adbann" (by decide +kernel)) (by decide +kernel)).1⟩

end AdBlock
