import Verif.SpecCheck
import Verif.Props.NodeApi
import Verif.Props.NodeText
import Verif.Props.Scripts
import Verif.Props.Saved
import Verif.Props.Lists
/-
C72: the tool scripts/check.js as a whole.
-/
namespace AdBlock
open Spec

theorem whenTruthy_given {o : Option Bytes} {s : Bytes} : whenTruthy o = some s ↔ Given o s := by
  unfold whenTruthy Given
  cases o with
  | none => simp
  | some t =>
    by_cases h : t = []
    · subst h; simp
    · simp only [h, if_false, Option.some.injEq]
      constructor
      · rintro rfl; exact ⟨rfl, h⟩
      · exact And.left

theorem whenTruthy_absent {o : Option Bytes} : whenTruthy o = none ↔ Absent o := by
  unfold whenTruthy Absent
  cases o with
  | none => simp
  | some t => by_cases h : t = [] <;> simp [h]

theorem whenTruthy_isSome {o : Option Bytes} : (whenTruthy o).isSome = true ↔ ∃ s, Given o s := by
  rw [Option.isSome_iff_exists]
  simp only [whenTruthy_given]

theorem purposeful_iff (a : CheckArgs) :
    (((whenTruthy a.host).isSome && ((whenTruthy a.location).isSome || (whenTruthy a.list).isSome)) || a.stats) = true ↔ Purposeful a := by
  simp only [Bool.or_eq_true, Bool.and_eq_true, whenTruthy_isSome, Purposeful]
  exact Or.comm

/-- every choice of options has one source -/
theorem source_exists (a : CheckArgs) : ∃ src, Chooses a src := by
  cases h1 : whenTruthy a.uuid with
  | some u => exact ⟨_, .uuid (whenTruthy_given.1 h1)⟩
  | none =>
  cases h2 : whenTruthy a.dat with
  | some u => exact ⟨_, .dat (whenTruthy_absent.1 h1) (whenTruthy_given.1 h2)⟩
  | none =>
  cases h3 : whenTruthy a.http with
  | some u => exact ⟨_, .http (whenTruthy_absent.1 h1) (whenTruthy_absent.1 h2) (whenTruthy_given.1 h3)⟩
  | none =>
  cases h4 : whenTruthy a.filter with
  | some u => exact ⟨_, .text (whenTruthy_absent.1 h1) (whenTruthy_absent.1 h2) (whenTruthy_absent.1 h3) (whenTruthy_given.1 h4)⟩
  | none =>
  cases h5 : whenTruthy a.filterPath with
  | some u => exact ⟨_, .file (whenTruthy_absent.1 h1) (whenTruthy_absent.1 h2) (whenTruthy_absent.1 h3) (whenTruthy_absent.1 h4) (whenTruthy_given.1 h5)⟩
  | none => exact ⟨_, .defaults (whenTruthy_absent.1 h1) (whenTruthy_absent.1 h2) (whenTruthy_absent.1 h3) (whenTruthy_absent.1 h4) (whenTruthy_absent.1 h5)⟩

theorem fetchBodies_eq {fetch : Bytes → Option Bytes} {urls bodies : List Bytes} :
    fetchBodies fetch urls = some bodies ↔ urls.map fetch = bodies.map some := by
  induction urls generalizing bodies with
  | nil => cases bodies <;> simp [fetchBodies]
  | cons u urls ih =>
    unfold fetchBodies
    cases h1 : fetch u with
    | none => cases bodies <;> simp [h1]
    | some b =>
      cases h2 : fetchBodies fetch urls with
      | none =>
        cases bodies with
        | nil => simp
        | cons b' bs =>
          simp only [List.map_cons, h1, List.cons.injEq]
          constructor
          · intro h; cases h
          · rintro ⟨-, h⟩; rw [← ih, h2] at h; cases h
      | some bs' =>
        cases bodies with
        | nil => simp
        | cons b' bs =>
          simp only [List.map_cons, h1, Option.some.injEq, List.cons.injEq, ← ih, h2]

theorem one_string {E : Env} (keep : Bool) (t : Bytes) : makeClientFromStrings E keep [t] = (Client.fresh E).parse t keep := by
  simp only [makeClientFromStrings, List.foldlM_cons, List.foldlM_nil]
  cases (Client.fresh E).parse t keep <;> rfl

/-- **C72**: the tool answers nothing if the arguments do not say what to do. -/
theorem C72_refused (E : Env) (w : World) {a : CheckArgs} (h : ¬ Purposeful a) : check E w a = .ok (some { output := .error }) := by
  have : checkClient E w a = none := by
    unfold checkClient
    rw [if_neg (fun h' => h ((purposeful_iff a).1 h'))]
  unfold check
  rw [this]
  rfl

/-- **C72**: the client is made of the text at the place the arguments name (the first of the order, if they
name several) … -/
theorem C72_source (E : Env) (w : World) {a : CheckArgs} (h : Purposeful a) {src : RuleSource} (hs : Chooses a src)
    {text : Bytes} (ht : TextAt w src text) : checkClient E w a = some (some <$> (Client.fresh E).parse text a.keepRuleText) := by
  unfold checkClient
  rw [if_pos ((purposeful_iff a).2 h)]
  cases hs with
  | uuid h1 =>
    rw [whenTruthy_given.2 h1]
    cases ht with
    | uuid hl hf => dsimp only; rw [C68_known E w.fetch _ hl, hf]; rfl
  | dat h1 h2 => cases ht
  | http h1 h2 h3 =>
    rw [whenTruthy_absent.2 h1, whenTruthy_absent.2 h2, whenTruthy_given.2 h3]
    cases ht with
    | http hf => simp only [makeClientFromListURL, hf, Option.map_some, one_string, certain]
  | text h1 h2 h3 h4 =>
    rw [whenTruthy_absent.2 h1, whenTruthy_absent.2 h2, whenTruthy_absent.2 h3, whenTruthy_given.2 h4]
    cases ht with
    | text => simp only [Option.map_some, one_string, certain]
  | file h1 h2 h3 h4 h5 =>
    rw [whenTruthy_absent.2 h1, whenTruthy_absent.2 h2, whenTruthy_absent.2 h3, whenTruthy_absent.2 h4, whenTruthy_given.2 h5]
    cases ht with
    | file hf => simp only [makeClientFromFilePath, hf, Option.map_some, one_string, certain]
  | defaults h1 h2 h3 h4 h5 =>
    rw [whenTruthy_absent.2 h1, whenTruthy_absent.2 h2, whenTruthy_absent.2 h3, whenTruthy_absent.2 h4, whenTruthy_absent.2 h5]
    cases ht with
    | @defaults bodies hf =>
      have : fetchBodies w.fetch (defaultLists.map (·.url)) = some bodies := by
        rw [fetchBodies_eq, List.map_map]; exact hf
      simp only [makeClientFromListURLs, this, Option.map_some, one_string, certain]

/-- … and if there is none (a list that is not known or cannot be downloaded, a file that cannot be read), the tool
answers nothing. -/
theorem C72_no_source (E : Env) (w : World) {a : CheckArgs} {src : RuleSource} (hs : Chooses a src)
    (ht : match src with | .dat path => w.readFile path = none | src => ∀ text, ¬ TextAt w src text) :
    check E w a = .ok (some { output := .error }) := by
  by_cases h : Purposeful a
  · suffices hn : checkClient E w a = none by
      unfold check
      rw [hn]
      rfl
    unfold checkClient
    rw [if_pos ((purposeful_iff a).2 h)]
    cases hs with
    | @uuid u h1 =>
      rw [whenTruthy_given.2 h1]
      dsimp only at ht ⊢
      cases hc : makeClientFromListUUID E w.fetch a.keepRuleText u with
      | none => rfl
      | some r =>
        obtain ⟨l, hl, rfl, body, hb, -⟩ := (C68_found_iff E _ _ _ _).1 hc
        exact absurd (.uuid hl hb) (ht _)
    | dat h1 h2 =>
      rw [whenTruthy_absent.2 h1, whenTruthy_given.2 h2]
      dsimp only at ht ⊢
      unfold makeClientFromDATFile
      rw [ht]
      rfl
    | @http u h1 h2 h3 =>
      rw [whenTruthy_absent.2 h1, whenTruthy_absent.2 h2, whenTruthy_given.2 h3]
      dsimp only at ht ⊢
      unfold makeClientFromListURL
      cases hf : w.fetch u with
      | none => rfl
      | some b => exact absurd (.http hf) (ht _)
    | text h1 h2 h3 h4 => exact absurd .text (ht _)
    | @file p h1 h2 h3 h4 h5 =>
      rw [whenTruthy_absent.2 h1, whenTruthy_absent.2 h2, whenTruthy_absent.2 h3, whenTruthy_absent.2 h4, whenTruthy_given.2 h5]
      dsimp only at ht ⊢
      unfold makeClientFromFilePath
      cases hf : w.readFile p with
      | none => rfl
      | some b => exact absurd (.file hf) (ht _)
    | defaults h1 h2 h3 h4 h5 =>
      rw [whenTruthy_absent.2 h1, whenTruthy_absent.2 h2, whenTruthy_absent.2 h3, whenTruthy_absent.2 h4, whenTruthy_absent.2 h5]
      dsimp only at ht ⊢
      unfold makeClientFromListURLs
      cases hf : fetchBodies w.fetch (defaultLists.map (·.url)) with
      | none => rfl
      | some b =>
        rw [fetchBodies_eq, List.map_map] at hf
        exact absurd (.defaults hf) (ht _)
  · exact C72_refused E w h

/-! ### The answers -/

theorem url_ne_nil (q : Request) : q.url ≠ [] := by
  unfold Request.url
  simp

theorem says_type {o : Option Bytes} {q : Request} (hq : q.Web) (h : SaysType o q.type) :
    int32Argument (checkFilterOption o) = q.context := by
  unfold Request.context
  cases ht : q.type with
  | none => rw [ht] at h; cases h; decide +kernel
  | some t =>
    rw [ht] at h
    obtain ⟨key, m, rfl, hk, hn⟩ := h
    have key' : ∀ e ∈ filterOptionsObject, ∀ t ∈ typeTable, JsNameOf e.1 t.1 → e.2 = t.2 := by decide +kernel
    rw [(C70_command_line_partial hk).1]
    exact key' _ (filterOptionsGet_mem.1 hk) _ (hq.type t ht) hn

/-- what the tool writes -/
def writes {E : Env} (c : Client E) (o : Option Bytes) : Res (Option (Bytes × Bytes)) :=
  match whenTruthy o with
  | none => pure none
  | some path => (fun s => some (path, s.buffer)) <$> c.serialize true true

theorem check_of_client {E : Env} {w : World} {a : CheckArgs} {c c' : Client E} {out : CheckOutput} {wr : Option (Bytes × Bytes)}
    (hc : checkClient E w a = some (.ok (some c))) (hs : a.stats = false) (hq : c.checkQuestions w a = .ok (some (out, c')))
    (hw : writes c' a.output = .ok wr) : check E w a = .ok (some { output := out, written := wr }) := by
  unfold check
  rw [hc]
  simp only [Res.bind_ok, hs, Bool.false_eq_true, if_false, hq]
  unfold writes at hw
  cases ho : whenTruthy a.output with
  | none => rw [ho] at hw; cases hw; rfl
  | some path =>
    rw [ho] at hw
    obtain ⟨s, h1, rfl⟩ := Res.map_eq_ok.1 hw
    simp only [h1, Res.bind_ok]
    rfl

theorem writes_ok {E : Env} {c : Client E} {fs : List Filter} (h : History E c fs) (o : Option Bytes) : ∃ wr, writes c o = .ok wr ∧
    (Absent o → wr = none) ∧ ∀ path, Given o path → ∃ s, c.serialize true true = .ok s ∧ wr = some (path, s.buffer) := by
  unfold writes
  cases ho : whenTruthy o with
  | none =>
    exact ⟨none, rfl, fun _ => rfl, fun p hp => by rw [whenTruthy_given.2 hp] at ho; cases ho⟩
  | some path =>
    obtain ⟨s, h1, -⟩ := C38_size h true true
    refine ⟨_, (by rw [h1]; rfl), (fun ha => by rw [whenTruthy_absent.2 ha] at ho; cases ho), fun p hp => ?_⟩
    rw [whenTruthy_given.2 hp] at ho
    cases ho
    exact ⟨s, h1, rfl⟩

/-- the tool asks the client about this request -/
theorem questions_one {E : Env} {w : World} {a : CheckArgs} {q : Request} (ha : Asks a q) (hq : q.Web) {c : Client E} {o : Outcome E}
    (ho : c.query q.url q.context q.domain = .ok o) :
    c.checkQuestions w a = .ok (some (.verdict o.block o.stats, { c with stats := o.stats, badFps := o.badFps })) := by
  obtain ⟨page, hd, -, hh⟩ := ha.host
  unfold Client.checkQuestions
  rw [whenTruthy_given.2 ⟨ha.location, url_ne_nil q⟩, ha.plain.2, hh, says_type hq ha.type]
  dsimp only
  rw [hd] at ho
  simp only [Bool.false_eq_true, if_false, nodeMatches_of_query ho, Res.bind_ok]
  rfl

theorem asks_purposeful {a : CheckArgs} {q : Request} (ha : Asks a q) : Purposeful a := by
  obtain ⟨page, -, hne, hh⟩ := ha.host
  exact .inr ⟨⟨page, hh, hne⟩, .inl ⟨_, ha.location, url_ne_nil q⟩⟩

/-- **C72**, with the restrictions of C59 on the rules: asked about a request, the tool says that it is to be
blocked exactly if a rule in the text applies to it and no exception does.  It writes a file if and only
if the arguments name one. -/
theorem C72_verdict_partial (E : Env) (w : World) {a : CheckArgs} {src : RuleSource} (hsrc : Chooses a src) {text : Bytes} (ht : TextAt w src text)
    (h0 : 0 ∉ text) {rs : List RuleText} (hs : SoundList E.bad rs) (hl : ListOf (Spec.lines text) rs)
    {q : Request} (ha : Asks a q) (hq : q.Web) (hclear : Clear E.bad rs q) (hroll : E.fp.rolls q.url) :
    ∃ b st wr, check E w a = .ok (some { output := .verdict b st, written := wr }) ∧ (b = true ↔ Blocked rs q) ∧
      (Absent a.output → wr = none) ∧ ∀ path, Given a.output path → ∃ data, wr = some (path, data) := by
  obtain ⟨c, h1, h2⟩ := C59_text_to_verdict_partial E rs hs text h0 hl a.keepRuleText
  obtain ⟨o, ho, hb⟩ := h2 [] q hq hclear hroll
  have hc : checkClient E w a = some (.ok (some c)) := by
    rw [C72_source E w (asks_purposeful ha) hsrc ht, h1]; rfl
  obtain ⟨gs, hg, -⟩ := C20_arrays_filled h1
  have hist : History E { c with stats := o.stats, badFps := o.badFps } ([] ++ gs) := .query (.parse .new h0 h1 hg) (b := o.block) (by
    unfold Client.matches; rw [show c.query q.url q.context q.domain = .ok o from ho]; rfl)
  obtain ⟨wr, k1, k2, k3⟩ := writes_ok hist a.output
  refine ⟨o.block, o.stats, wr, check_of_client hc ha.plain.1 (questions_one ha hq ho) k1, hb, k2, fun path hp => ?_⟩
  obtain ⟨s, -, e⟩ := k3 path hp
  exact ⟨_, e⟩

/-- **C72**: rules in a file count like the same rules on the command line. -/
theorem C72_file (E : Env) (w : World) (a : CheckArgs) {path text : Bytes} (hp : path ≠ []) (ht : text ≠ []) (hf : w.readFile path = some text) :
    check E w { a with filter := none, filterPath := some path } = check E w { a with filter := some text, filterPath := none } := by
  have key : checkClient E w { a with filter := none, filterPath := some path } = checkClient E w { a with filter := some text, filterPath := none } := by
    unfold checkClient
    simp only [whenTruthy_given.2 (⟨rfl, hp⟩ : Given (some path) path), whenTruthy_given.2 (⟨rfl, ht⟩ : Given (some text) text),
      makeClientFromFilePath, hf, Option.map_some, show whenTruthy none = none from rfl, CheckArgs.keepRuleText]
  unfold check
  rw [key]
  rfl

theorem pointwise_judged {E : Env} {c : Client E} {page : Bytes} {m : Mask} {P : Request → Prop} {qs : List Request} {bs : List Bool}
    (h : Pointwise (Judges c m page) (qs.map Request.url) bs) (hb : ∀ q ∈ qs, ∃ o, c.query q.url m (some page) = .ok o ∧ (o.block = true ↔ P q)) :
    bs.count true = howMany P qs ∧ bs.count false = howMany (fun q => ¬ P q) qs := by
  induction qs generalizing bs with
  | nil => cases h; exact ⟨rfl, rfl⟩
  | cons q qs ih =>
    rw [List.map_cons] at h
    cases h with
    | @cons _ b _ bs hj h =>
      obtain ⟨i1, i2⟩ := ih h fun q hq => hb q (by simp [hq])
      obtain ⟨o, ho, hP⟩ := hb q (by simp)
      obtain ⟨o', ho', rfl⟩ := hj
      rw [ho] at ho'
      cases ho'
      unfold howMany at i1 i2 ⊢
      rw [List.countP_cons, List.countP_cons, List.count_cons, List.count_cons, i1, i2]
      cases hk : o.block with
      | true => rw [hk] at hP; simp [hP.1 rfl]
      | false =>
        rw [hk] at hP
        have : ¬ P q := fun h => by simpa using hP.2 h
        simp [this]

theorem checkList_of_askAll {E : Env} {sites : List Bytes} {c c' : Client E} {option : Mask} {host : Bytes} {bs : List Bool}
    (h : c.askAll option host sites = .ok (bs, c')) (n : CheckCounts) : ∃ m, c.checkList option host sites n = .ok (m, c') := by
  induction sites generalizing c bs n with
  | nil => cases h; exact ⟨n, rfl⟩
  | cons site sites ih =>
    simp only [Client.askAll] at h
    obtain ⟨⟨b, c1⟩, h1, h⟩ := Res.bind_eq_ok.1 h
    obtain ⟨⟨bs1, c2⟩, h2, h⟩ := Res.bind_eq_ok.1 h
    cases h
    obtain ⟨m, hm⟩ := ih h2 (if b then { n with matching := n.matching + 1 } else { n with skipped := n.skipped + 1 })
    refine ⟨m, ?_⟩
    simp only [Client.checkList, h1, Res.bind_ok]
    exact hm

/-- **C72**, with the restrictions of C59 on the rules: asked about a file with addresses, the tool tells how
many of them are to be blocked, and how many are not. -/
theorem C72_list_partial (E : Env) (w : World) {a : CheckArgs} {src : RuleSource} (hsrc : Chooses a src) {text : Bytes} (ht : TextAt w src text)
    (h0 : 0 ∉ text) {rs : List RuleText} (hs : SoundList E.bad rs) (hl : ListOf (Spec.lines text) rs)
    {qs : List Request} (ha : AsksAll w a qs) (hq : ∀ q ∈ qs, q.Web ∧ Clear E.bad rs q ∧ E.fp.rolls q.url) :
    ∃ n st wr, check E w a = .ok (some { output := .counts n st, written := wr }) ∧
      n.matching = howMany (Blocked rs) qs ∧ n.skipped = howMany (fun q => ¬ Blocked rs q) qs ∧
      (Absent a.output → wr = none) ∧ ∀ path, Given a.output path → ∃ data, wr = some (path, data) := by
  obtain ⟨c, h1, h2⟩ := C59_text_to_verdict_partial E rs hs text h0 hl a.keepRuleText
  obtain ⟨file, sites, hgl, hread, hsplit⟩ := ha.list
  obtain ⟨page, hne, hh, hdom⟩ := ha.host
  have hc : checkClient E w a = some (.ok (some c)) := by
    rw [C72_source E w (.inr ⟨⟨page, hh, hne⟩, .inr ⟨_, hgl⟩⟩) hsrc ht, h1]; rfl
  generalize hm : int32Argument (checkFilterOption a.filterOption) = m
  have each : ∀ q ∈ qs, ∃ o, c.query q.url m (some page) = .ok o ∧ (o.block = true ↔ Blocked rs q) := by
    intro q hmem
    obtain ⟨o, ho, hb⟩ := h2 [] q (hq q hmem).1 (hq q hmem).2.1 (hq q hmem).2.2
    rw [hdom q hmem, ← says_type (hq q hmem).1 (ha.type q hmem), hm] at ho
    exact ⟨o, ho, hb⟩
  obtain ⟨bs, c', h3⟩ := askAll_total (sites := qs.map Request.url) (c := c) (option := m) (page := page) fun site hsite => by
    obtain ⟨q, hmem, rfl⟩ := List.mem_map.1 hsite
    obtain ⟨o, ho, -⟩ := each q hmem
    exact ⟨_, o, ho, rfl⟩
  obtain ⟨n, h4⟩ := checkList_of_askAll h3 {}
  obtain ⟨bs', h5, h6⟩ := checkList_counts h4
  rw [h3] at h5
  cases h5
  obtain ⟨-, hj, hhist⟩ := askAll_ok h3
  obtain ⟨k1, k2⟩ := pointwise_judged hj each
  obtain ⟨gs, hg, -⟩ := C20_arrays_filled h1
  obtain ⟨wr, e1, e2, e3⟩ := writes_ok (hhist _ (.parse .new h0 h1 hg)) a.output
  have hques : c.checkQuestions w a = .ok (some (.counts n c'.stats, c')) := by
    unfold Client.checkQuestions
    rw [whenTruthy_absent.2 ha.location, ha.plain.2, hm, hgl.1]
    simp only [Option.bind_some, hread, Bool.false_eq_true, if_false, CheckArgs.page, hh, pageArgument, hsplit, h4, Res.bind_ok]
    rfl
  refine ⟨n, c'.stats, wr, check_of_client hc ha.plain.1 hques e1, ?_, ?_, e2, fun path hp => ?_⟩
  · rw [h6]; simpa using k1
  · rw [h6]; simpa using k2
  · obtain ⟨s, -, e⟩ := e3 path hp
    exact ⟨_, e⟩

theorem writes_of_serialize {E : Env} {c : Client E} {s : Serialized} (h : c.serialize true true = .ok s) (o : Option Bytes) :
    ∃ wr, writes c o = .ok wr ∧ (Absent o → wr = none) ∧ ∀ path, Given o path → ∃ data, wr = some (path, data) := by
  unfold writes
  cases hout : whenTruthy o with
  | none => exact ⟨none, rfl, fun _ => rfl, fun p hp => by rw [whenTruthy_given.2 hp] at hout; cases hout⟩
  | some p =>
    refine ⟨some (p, s.buffer), (by rw [h]; rfl), (fun h => by rw [whenTruthy_absent.2 h] at hout; cases hout), fun p' hp => ?_⟩
    rw [whenTruthy_given.2 hp] at hout
    cases hout
    exact ⟨_, rfl⟩

theorem client_of_data {E : Env} {w : World} {a : CheckArgs} {q : Request} (ha : Asks a q) {path data : Bytes} (hu : Absent a.uuid)
    (hdat : Given a.dat path) (hread : w.readFile path = some data) {d : Client E} (hd : (Client.fresh E).deserialize data = .ok (some d)) :
    checkClient E w a = some (.ok (some d)) := by
  unfold checkClient
  rw [if_pos ((purposeful_iff a).2 (asks_purposeful ha)), whenTruthy_absent.2 hu, whenTruthy_given.2 hdat]
  dsimp only
  unfold makeClientFromDATFile makeClientFromData
  rw [hread, Option.map_some, hd]

/-- **C72**, with the restrictions of C66: the file written with `--output` serves for `--dat` in another run, which
then answers every request as the text of the rules says (and writes a file again if it is to). -/
theorem C72_saved_partial (E : Env) (hE : FixedBlooms E) (hm : ModerateBlooms E) (w : World) {a : CheckArgs} {src : RuleSource} (hsrc : Chooses a src)
    {text : Bytes} (ht : TextAt w src text) (h0 : 0 ∉ text) {rs : List RuleText} (hs : SoundList E.bad rs) (hl : ListOf (Spec.lines text) rs)
    (hsave : SavableList text rs) (hsize : text.length < 20000000)
    {q : Request} (ha : Asks a q) (hq : q.Web) (hclear : Clear E.bad rs q) (hroll : E.fp.rolls q.url) {path : Bytes} (hpath : Given a.output path) :
    ∃ out data, check E w a = .ok (some { output := out, written := some (path, data) }) ∧
      ∀ (w' : World) (a' : CheckArgs), w'.readFile path = some data → Absent a'.uuid → Given a'.dat path →
        ∀ q' : Request, Asks a' q' → q'.Web → Clear E.bad rs q' → E.fp.rolls q'.url →
          ∃ b st wr, check E w' a' = .ok (some { output := .verdict b st, written := wr }) ∧ (b = true ↔ Blocked rs q') ∧
            (Absent a'.output → wr = none) ∧ ∀ path, Given a'.output path → ∃ data, wr = some (path, data) := by
  obtain ⟨c, h1, h2⟩ := C59_text_to_verdict_partial E rs hs text h0 hl a.keepRuleText
  obtain ⟨o, ho, hb⟩ := h2 [] q hq hclear hroll
  have ho : c.query q.url q.context q.domain = .ok o := ho
  have hc : checkClient E w a = some (.ok (some c)) := by
    rw [C72_source E w (asks_purposeful ha) hsrc ht, h1]; rfl
  obtain ⟨gs, hg, -⟩ := C20_arrays_filled h1
  have hist : History E { c with stats := o.stats, badFps := o.badFps } ([] ++ gs) := .query (.parse .new h0 h1 hg) (b := o.block) (by
    unfold Client.matches; rw [ho]; rfl)
  obtain ⟨wr, k1, k2, k3⟩ := writes_ok hist a.output
  obtain ⟨s, e, rfl⟩ := k3 path hpath
  refine ⟨_, s.buffer, check_of_client hc ha.plain.1 (questions_one ha hq ho) k1, fun w' a' hread hu hdat q' ha' hq' hclear' hroll' => ?_⟩
  obtain ⟨as, as', d, g1, g2, g3⟩ := C66_saved_session_partial E hE hm [.call (.load text a.keepRuleText rs), .call (.matches q), .reload, .call (.matches q'), .reload]
    ⟨⟨h0, hl, hs⟩, ⟨hq, hclear, hroll⟩, ⟨hq', hclear', hroll'⟩, trivial⟩ (fun x hx => by
      simp only [List.mem_cons, List.not_mem_nil, or_false] at hx
      rcases hx with rfl | rfl | rfl | rfl | rfl
      · exact hsave
      all_goals trivial) (fun pre post e => by
      have : pre = [.call (.load text a.keepRuleText rs), .call (.matches q)] ∨
          pre = [.call (.load text a.keepRuleText rs), .call (.matches q), .reload, .call (.matches q')] := by
        rcases pre with _ | ⟨x, _ | ⟨y, _ | ⟨z, _ | ⟨u, _ | ⟨v, pre⟩⟩⟩⟩⟩
        · cases e
        · cases e
        · cases e; exact .inl rfl
        · cases e
        · cases e; exact .inr rfl
        · simp at e
      rcases this with rfl | rfl
      all_goals
        show 0 + (text.length + 1) ≤ 20000000
        omega)
  obtain ⟨_, _, rfl, a1, _, _, rfl, a2, a3, _, rfl, b3, rfl⟩ := g1
  cases g2 with
  | op s1 g2 =>
  cases g2 with
  | op s2 g2 =>
  cases g2 with
  | reload s3 s4 g2 =>
  cases g2 with
  | op s5 g2 =>
  cases g2 with
  | reload s6 _ _ =>
  simp only [Call.op, step] at s1 s2 s5
  rw [h1] at s1
  cases s1
  rw [ho] at s2
  cases s2
  rw [e] at s3
  cases s3
  have htags : c.tags = [] := parse_tags h1
  rw [show ({ c with stats := o.stats, badFps := o.badFps } : Client E).tags = c.tags from rfl, htags] at s4
  obtain ⟨o', ho', s5⟩ := Res.map_eq_ok.1 s5
  cases s5
  cases g3 with
  | cons _ g3 =>
  cases g3 with
  | cons _ g3 =>
  cases g3 with
  | cons t3 g3 =>
  cases t3 with
  | verdict _ _ =>
  have hv : ({ rules := rs } : Book).Verdict q' o'.block _ _ := b3
  obtain ⟨wr, hwr, k4, k5⟩ := writes_of_serialize s6 a'.output
  exact ⟨_, _, wr, check_of_client (client_of_data ha' hu hdat hread s4) ha'.plain.1 (questions_one ha' hq' ho') hwr, hv.blocked, k4, k5⟩

/-- **C72** with `--discover`, with the restrictions of C61 on the rules: asked about a request, the tool shows a rule and an
exception that apply to it.  All of the rule is shown, unless a data file is named too. -/
theorem C72_discover_partial (E : Env) (w : World) {a : CheckArgs} {src : RuleSource} (hsrc : Chooses a src) {text : Bytes} (ht : TextAt w src text)
    (h0 : 0 ∉ text) {rs : List RuleText} (hs : SoundList E.bad rs) (hl : ListOf (Spec.lines text) rs)
    {q : Request} (ha : AsksWhy a q) (hq : q.Web) (hclear : Clear E.bad rs q) (hno : ∀ r ∈ rs, r.HostOnly → ¬ r.AppliesTo [] q) :
    ∃ keep d st wr, check E w a = .ok (some { output := .found d st, written := wr }) ∧
      (keep = true ↔ Absent a.dat) ∧ Tells keep { rules := rs } q d ∧
      (Absent a.output → wr = none) ∧ ∀ path, Given a.output path → ∃ data, wr = some (path, data) := by
  obtain ⟨c, h1, h2⟩ := C61_text_partial E rs hs text h0 hl a.keepRuleText
  obtain ⟨page, hd, hne, hh⟩ := ha.host
  obtain ⟨d, h3, h4⟩ := h2 [] q page hq hclear hd hno
  have h3 : c.nodeFind q.url q.context (some page) = .ok d := h3
  have hc : checkClient E w a = some (.ok (some c)) := by
    rw [C72_source E w (.inr ⟨⟨page, hh, hne⟩, .inl ⟨_, ha.location, url_ne_nil q⟩⟩) hsrc ht, h1]; rfl
  obtain ⟨gs, hg, -⟩ := C20_arrays_filled h1
  obtain ⟨wr, k1, k2, k3⟩ := writes_ok (.parse .new h0 h1 hg) a.output
  have hques : c.checkQuestions w a = .ok (some (.found d c.stats, c)) := by
    unfold Client.checkQuestions
    rw [whenTruthy_given.2 ⟨ha.location, url_ne_nil q⟩, ha.discover.2, hh, says_type hq ha.type]
    simp only [if_true, h3, Res.bind_ok]
    rfl
  refine ⟨a.keepRuleText, d, c.stats, wr, check_of_client hc ha.discover.1 hques k1, ?_, h4, k2, fun path hp => ?_⟩
  · rw [← whenTruthy_absent, CheckArgs.keepRuleText, ha.discover.2, Bool.true_and, Option.isNone_iff_eq_none]
  · obtain ⟨s, -, e⟩ := k3 path hp
    exact ⟨_, e⟩

/-- **C72**: with `--stats` the tool prints the numbers of C71. -/
theorem C72_stats (E : Env) (w : World) {a : CheckArgs} {src : RuleSource} (hsrc : Chooses a src) {text : Bytes} (ht : TextAt w src text)
    (hst : a.stats = true) {c : Client E} (hc : (Client.fresh E).parse text a.keepRuleText = .ok c) :
    check E w a = .ok (some { output := .parsing c.getParsingStats }) := by
  unfold check
  rw [C72_source E w (.inl hst) hsrc ht, hc]
  simp only [Res.map_ok, Res.bind_ok, hst, if_true]
  rfl

/-- **C72** fails for `--output` together with `--stats`: no file is written. -/
theorem C72_stats_output_counterexample {E : Env} {w : World} {a : CheckArgs} (hst : a.stats = true) {r : CheckRun}
    (h : check E w a = .ok (some r)) : r.written = none := by
  unfold check at h
  cases hc : checkClient E w a with
  | none => rw [hc] at h; cases h; rfl
  | some x =>
    rw [hc] at h
    obtain ⟨y, -, h⟩ := Res.bind_eq_ok.1 h
    cases y with
    | none => cases h
    | some c =>
      simp only [hst, if_true] at h
      cases h
      rfl

/-- **C72** fails for a list of addresses with `--discover`: all are counted as matching. -/
theorem C72_discover_counterexample {E : Env} {w : World} {a : CheckArgs} (hd : a.discover = true) {r : CheckRun} {n : CheckCounts} {st : Stats}
    (h : check E w a = .ok (some r)) (ho : r.output = .counts n st) :
    ∃ path text, a.list = some path ∧ w.readFile path = some text ∧ n = ⟨(jsSplit text).length, 0⟩ := by
  unfold check at h
  cases hc : checkClient E w a with
  | none => rw [hc] at h; cases h; cases ho
  | some x =>
    rw [hc] at h
    obtain ⟨y, -, h⟩ := Res.bind_eq_ok.1 h
    cases y with
    | none => cases h
    | some c =>
      dsimp only at h
      split at h
      · cases h; cases ho
      obtain ⟨z, hz, h⟩ := Res.bind_eq_ok.1 h
      cases z with
      | none => cases h; cases ho
      | some z =>
        obtain ⟨out, c'⟩ := z
        have hout : r.output = out := by
          dsimp only at h
          split at h
          · cases h; rfl
          · obtain ⟨s, -, h⟩ := Res.bind_eq_ok.1 h
            cases h; rfl
        rw [ho] at hout
        subst hout
        unfold Client.checkQuestions at hz
        dsimp only at hz
        split at hz
        · rw [if_pos hd] at hz
          obtain ⟨f, -, hz⟩ := Res.bind_eq_ok.1 hz
          cases hz
        · split at hz
          · cases hz
          · rename_i text hl
            rw [if_pos hd] at hz
            obtain ⟨n', hn, hz⟩ := Res.bind_eq_ok.1 hz
            cases hz
            obtain ⟨path, hp, hr⟩ := Option.bind_eq_some_iff.1 hl
            exact ⟨path, text, hp, hr, C64_discover_counterexample hn⟩

/-! ### The theorems are not empty -/

private theorem exApplies' (q : Request) (hq : q.Web) (r : RuleText) (hr : r ∈ exRules) : r.AppliesTo [] q ↔
    Acts [] q.url (resolveContext q.url q.context q.domain) q.domain (r.filter true) :=
  (acts_iff ((exSound (bad := [])).wellFormed r hr) true hq ((exClear _).inBounds r hr) _).symm

theorem exBlocked : Blocked exRules exScript ∧ ¬ Blocked exRules exOk := by
  refine ⟨⟨⟨_, List.mem_cons_self, rfl, ?_⟩, ?_⟩, fun h => h.2 ⟨exRules[3], by simp [exRules], rfl, ?_⟩⟩
  · exact (exApplies' _ exWeb.1 _ List.mem_cons_self).2 ⟨by decide +kernel, .inl (by decide +kernel)⟩
  · rintro ⟨r, hr, he, ha⟩
    rw [exApplies' _ exWeb.1 r hr] at ha
    have : ∀ r ∈ exRules, r.exception = true → (r.filter true).matches exScript.url
        (resolveContext exScript.url exScript.context exScript.domain) exScript.domain none = .ok false := by decide +kernel
    have e := ha.1
    rw [this r hr he] at e
    cases e
  · exact (exApplies' _ exWeb.2 _ (by simp [exRules])).2 ⟨by decide +kernel, .inl (by decide +kernel)⟩

/-- `check.js --filter-path rules.txt --host news.com --location … -O script --output saved.dat` -/
private def exCheck : CheckArgs :=
  { filterPath := some bs%"rules.txt", host := some bs%"news.com", location := some exScript.url, filterOption := some bs%"script",
    output := some bs%"saved.dat" }

/-- `check.js --dat saved.dat --host news.com --location … -O script` -/
private def exCheckSaved : CheckArgs :=
  { dat := some bs%"saved.dat", host := some bs%"news.com", location := some exOk.url, filterOption := some bs%"script" }

/-- `check.js --filter-path rules.txt --host news.com --list sites.txt -O script` -/
private def exCheckList : CheckArgs :=
  { filterPath := some bs%"rules.txt", host := some bs%"news.com", list := some bs%"sites.txt", filterOption := some bs%"script" }

private def exWorld (saved : Bytes) : World where
  fetch _ := none
  readFile name :=
    if name = bs%"rules.txt" then some exText
    else if name = bs%"sites.txt" then some (exScript.url ++ 10 :: exOk.url)
    else if name = bs%"saved.dat" then some saved
    else none

private theorem exType : SaysType (some bs%"script") (some (bs%"script", FOScript)) :=
  ⟨bs%"script", FOScript, rfl, by decide +kernel, by decide +kernel⟩

/-- one run writes a file, another one reads it -/
example (E : Env) (hE : FixedBlooms E) (hb : ModerateBlooms E) (hbad : E.bad = [bs%"tracke"]) (hroll : ∀ url, E.fp.rolls url) :
    ∃ out data st, check E (exWorld []) exCheck = .ok (some { output := out, written := some (bs%"saved.dat", data) }) ∧
      check E (exWorld data) exCheckSaved = .ok (some { output := .verdict false st }) := by
  obtain ⟨out, data, h1, h2⟩ := C72_saved_partial E hE hb (exWorld []) (a := exCheck)
    (.file (.inl rfl) (.inl rfl) (.inl rfl) (.inl rfl) ⟨rfl, by decide⟩) (.file rfl) (by decide +kernel) exSound exList exSavable
    (Nat.lt_of_le_of_lt (show exText.length ≤ 1000 by decide +kernel) (by decide)) (q := exScript)
    ⟨rfl, ⟨_, rfl, by decide, rfl⟩, exType, rfl, rfl⟩ exWeb.1 (hbad ▸ exClear _) (hroll _) ⟨rfl, by decide⟩
  obtain ⟨b, st, wr, h3, h4, h5, -⟩ := h2 (exWorld data) exCheckSaved rfl (.inl rfl) ⟨rfl, by decide⟩ exOk
    ⟨rfl, ⟨_, rfl, by decide, rfl⟩, exType, rfl, rfl⟩ exWeb.2 (hbad ▸ exClear _) (hroll _)
  have e1 : b = false := by rw [← Bool.not_eq_true, h4]; exact exBlocked.2
  have e2 : wr = none := h5 (.inl rfl)
  subst e1 e2
  exact ⟨out, data, st, h1, h3⟩

/-- one of the two sites is to be blocked -/
example (E : Env) (hbad : E.bad = [bs%"tracke"]) (hroll : ∀ url, E.fp.rolls url) :
    ∃ n st, check E (exWorld []) exCheckList = .ok (some { output := .counts n st }) ∧ n = ⟨1, 1⟩ := by
  obtain ⟨n, st, wr, h1, h2, h3, h4, -⟩ := C72_list_partial E (exWorld []) (a := exCheckList)
    (.file (.inl rfl) (.inl rfl) (.inl rfl) (.inl rfl) ⟨rfl, by decide⟩) (.file rfl) (by decide +kernel) exSound exList (qs := [exScript, exOk])
    { location := .inl rfl
      list := ⟨bs%"sites.txt", _, ⟨rfl, by decide⟩, rfl, by decide +kernel⟩
      host := ⟨bs%"news.com", by decide, rfl, by intro q hq; simp at hq; rcases hq with rfl | rfl <;> rfl⟩
      type := by intro q hq; simp at hq; rcases hq with rfl | rfl <;> exact exType
      plain := ⟨rfl, rfl⟩ }
    (by intro q hq; simp at hq; rcases hq with rfl | rfl <;> exact ⟨by first | exact exWeb.1 | exact exWeb.2, hbad ▸ exClear _, hroll _⟩)
  have e2 : wr = none := h4 (.inl rfl)
  subst e2
  refine ⟨n, st, h1, ?_⟩
  have k1 : howMany (Blocked exRules) [exScript, exOk] = 1 := by
    unfold howMany; simp [exBlocked.1, exBlocked.2]
  have k2 : howMany (fun q => ¬ Blocked exRules q) [exScript, exOk] = 1 := by
    unfold howMany; simp [exBlocked.1, exBlocked.2]
  obtain ⟨m1, m2⟩ := n
  dsimp only at h2 h3
  rw [h2, h3, k1, k2]

/-- `check.js --filter-path rules.txt --host news.com --location … -O image --discover` -/
private def exCheckWhy : CheckArgs :=
  { filterPath := some bs%"rules.txt", host := some bs%"news.com", location := some exImage.url, filterOption := some bs%"image",
    discover := true }

/-- the rule is shown -/
example (E : Env) (hbad : E.bad = [bs%"tracke"]) : ∃ d st, check E (exWorld []) exCheckWhy = .ok (some { output := .found d st }) ∧
    d.isMatch = true ∧ ∃ r ∈ exRules, d.matchingOrigRule = some r.body := by
  obtain ⟨keep, d, st, wr, h1, h2, h3, h4, -⟩ := C72_discover_partial E (exWorld []) (a := exCheckWhy)
    (.file (.inl rfl) (.inl rfl) (.inl rfl) (.inl rfl) ⟨rfl, by decide⟩) (.file rfl) (by decide +kernel) exSound exList (q := exImage)
    ⟨rfl, ⟨_, rfl, by decide, rfl⟩, ⟨bs%"image", FOImage, rfl, by decide +kernel, by decide +kernel⟩, rfl, rfl⟩ exImage_web (hbad ▸ exClear _) exImage_no_host
  have e1 : keep = true := h2.2 (.inl rfl)
  have e2 : wr = none := h4 (.inl rfl)
  subst e1 e2
  obtain ⟨r, hr, -, -, -, e⟩ := h3.rule exImage_rule.1
  exact ⟨d, st, h1, h3.isMatch.2 exImage_rule, r, hr, e⟩

/-- several sources: the UUID counts -/
example : Chooses { uuid := some bs%"U", dat := some bs%"d", filter := some bs%"f" } (.uuid bs%"U") ∧
    Chooses { uuid := some [], http := some bs%"h", filter := some bs%"f" } (.http bs%"h") ∧
    ¬ Purposeful { host := some bs%"a.com" } ∧ ¬ Purposeful { location := some bs%"http://a.com/" } := by
  refine ⟨.uuid ⟨rfl, by decide⟩, .http (.inr rfl) (.inl rfl) ⟨rfl, by decide⟩, ?_, ?_⟩
  · rintro (h | ⟨-, ⟨_, h, -⟩ | ⟨_, h, -⟩⟩) <;> cases h
  · rintro (h | ⟨⟨_, h, -⟩, -⟩) <;> cases h

end AdBlock
