import Verif.SpecLists
import Verif.Props.Scripts
import Verif.Props.Size
/-
C68 and C69: the tables of lists, the files that are made of them, and the manifests.
-/
namespace AdBlock
open Spec

/-! ### C68: lists are found by their UUID -/

theorem uuids_distinct : (allLists.map (·.uuid)).Nodup := by decide +kernel

theorem no_special_function : (allLists.all fun l => l.uuid != bs%"FBB430E8-3910-4761-9373-840FC3B43FF2") = true := by decide +kernel

theorem findList_eq (uuid : Bytes) : findList uuid = allLists.find? (fun l => l.uuid == uuid) := by
  unfold findList allLists
  rw [List.find?_append, List.find?_append]
  cases defaultLists.find? (fun l => l.uuid == uuid) with
  | some l => rfl
  | none => cases regionLists.find? (fun l => l.uuid == uuid) <;> rfl

theorem find?_of_nodup {l : FilterList} {ls : List FilterList} (h : (ls.map (·.uuid)).Nodup) (hl : l ∈ ls) :
    ls.find? (fun k => k.uuid == l.uuid) = some l := by
  induction ls with
  | nil => cases hl
  | cons k ls ih =>
    rw [List.map_cons, List.nodup_cons] at h
    rw [List.find?_cons]
    rcases List.mem_cons.1 hl with rfl | hl
    · simp
    · have : ¬ k.uuid = l.uuid := fun e => h.1 (e ▸ List.mem_map_of_mem hl)
      have h2 : (k.uuid == l.uuid) = false := by simpa using this
      rw [h2]
      exact ih h.2 hl

theorem find_uuid {l : FilterList} (hl : l ∈ allLists) : findList l.uuid = some l := by
  rw [findList_eq]
  exact find?_of_nodup uuids_distinct hl

theorem list_function {l : FilterList} (hl : l ∈ allLists) : getListFilterFunction l.uuid = none := by
  have h := List.all_eq_true.1 no_special_function l hl
  unfold getListFilterFunction
  rw [if_neg]
  simpa using h

/-- **C68**: for every list in the tables, its UUID makes a client of the text at its address,
preprocessed like any other list. -/
theorem C68_known (E : Env) (fetch : Bytes → Option Bytes) (keep : Bool) {l : FilterList} (hl : l ∈ allLists) :
    makeClientFromListUUID E fetch keep l.uuid =
      (fetch l.url).map fun body => (Client.fresh E).parse (listURLText none body) keep := by
  unfold makeClientFromListUUID makeClientFromListURL
  rw [find_uuid hl, list_function hl]
  dsimp only
  cases fetch l.url with
  | none => rfl
  | some body =>
    simp only [Option.map_some, makeClientFromStrings, List.foldlM_cons, List.foldlM_nil]
    cases (Client.fresh E).parse (listURLText none body) keep <;> rfl

/-- **C68**: a UUID makes a client exactly if it belongs to a list in the tables and this list can be
downloaded. -/
theorem C68_found_iff (E : Env) (fetch : Bytes → Option Bytes) (keep : Bool) (uuid : Bytes) (r : Res (Client E)) :
    makeClientFromListUUID E fetch keep uuid = some r ↔
      ∃ l ∈ allLists, l.uuid = uuid ∧ ∃ body, fetch l.url = some body ∧ r = (Client.fresh E).parse (listURLText none body) keep := by
  constructor
  · intro h
    have h1 : ∃ l ∈ allLists, l.uuid = uuid := by
      unfold makeClientFromListUUID at h
      cases h2 : findList uuid with
      | none => rw [h2] at h; cases h
      | some l =>
        rw [findList_eq] at h2
        exact ⟨l, List.mem_of_find?_eq_some h2, by simpa using List.find?_some h2⟩
    obtain ⟨l, hl, rfl⟩ := h1
    rw [C68_known E fetch keep hl] at h
    obtain ⟨body, h1, h2⟩ := Option.map_eq_some_iff.1 h
    exact ⟨l, hl, rfl, body, h1, h2.symm⟩
  · rintro ⟨l, hl, rfl, body, h1, rfl⟩
    rw [C68_known E fetch keep hl, h1]
    rfl

/-- **C68**: every other UUID is rejected. -/
theorem C68_unknown (E : Env) (fetch : Bytes → Option Bytes) (keep : Bool) {uuid : Bytes} (h : ∀ l ∈ allLists, l.uuid ≠ uuid) :
    makeClientFromListUUID E fetch keep uuid = none := by
  cases h1 : makeClientFromListUUID E fetch keep uuid with
  | none => rfl
  | some r =>
    obtain ⟨l, hl, e, -⟩ := (C68_found_iff E fetch keep uuid r).1 h1
    exact absurd e (h l hl)

/-- **C68**: the client answers web requests like one which has loaded the text at the address of
the list, followed by the extra rules of C48. -/
theorem C68_verdicts {E : Env} {fetch : Bytes → Option Bytes} {keep : Bool} {l : FilterList} (hl : l ∈ allLists) {body : Bytes}
    (hb : fetch l.url = some body) (h0 : 0 ∉ body) {c c' : Client E} (hc : makeClientFromListUUID E fetch keep l.uuid = some (.ok c))
    (hc' : (Client.fresh E).parse (body ++ 10 :: extraText) keep = .ok c') {url : Bytes} {dom : Option Bytes} {ctx : Mask}
    (hw : WebUrl url) (hlen : 5 < url.length) (hu : 0 ∉ url) (hroll : E.fp.rolls url)
    (hne : dom = none → ∀ s, NoEmptyExclusion E.bad s (readText E.bad keep body)) {o o' : Outcome E}
    (hq : c.query url ctx dom = .ok o) (hq' : c'.query url ctx dom = .ok o') : o.block = o'.block := by
  rw [C68_known E fetch keep hl, hb] at hc
  simp only [Option.map_some, Option.some.injEq] at hc
  exact C48_list_url .new h0 hc' hc hw hlen hu hroll hne hq' hq

/-- **C68** fails for the one UUID which has a function of its own: it is in none of the tables. -/
theorem C68_malware_counterexample (E : Env) (fetch : Bytes → Option Bytes) (keep : Bool) :
    (∃ f, getListFilterFunction bs%"FBB430E8-3910-4761-9373-840FC3B43FF2" = some f) ∧
    makeClientFromListUUID E fetch keep bs%"FBB430E8-3910-4761-9373-840FC3B43FF2" = none := by
  refine ⟨⟨_, if_pos rfl⟩, C68_unknown E fetch keep fun l hl => ?_⟩
  simpa using List.all_eq_true.1 no_special_function l hl

/-! ### C68: the run over all lists -/

theorem fetchAll_none {fetch : Bytes → Option Bytes} {ls : List FilterList} : fetchAll fetch ls = none ↔ ¬ Available fetch ls := by
  induction ls with
  | nil => simp [fetchAll, Available]
  | cons l ls ih =>
    unfold fetchAll
    constructor
    · intro h hav
      obtain ⟨body, hb⟩ := hav l (by simp)
      cases h2 : fetchAll fetch ls with
      | none => exact ih.1 h2 fun k hk => hav k (by simp [hk])
      | some bs => rw [hb, h2] at h; cases h
    · intro h
      cases hb : fetch l.url with
      | none => rfl
      | some body =>
        have : fetchAll fetch ls = none := ih.2 fun hav => h fun k hk => by
          rcases List.mem_cons.1 hk with rfl | hk
          · exact ⟨body, hb⟩
          · exact hav k hk
        rw [this]

theorem fetchAll_some {fetch : Bytes → Option Bytes} {ls : List FilterList} {bs : List (Bytes × Bytes)} (h : fetchAll fetch ls = some bs) :
    Pointwise (fun l b => b.1 = l.uuid ∧ fetch l.url = some b.2) ls bs := by
  induction ls generalizing bs with
  | nil => cases h; exact .nil
  | cons l ls ih =>
    unfold fetchAll at h
    cases hb : fetch l.url with
    | none => rw [hb] at h; cases h
    | some body =>
      cases h2 : fetchAll fetch ls with
      | none => rw [hb, h2] at h; cases h
      | some bs2 =>
        rw [hb, h2] at h
        cases h
        exact .cons ⟨rfl, hb⟩ (ih h2)

theorem generateRegions_ok {E : Env} {fetch : Bytes → Option Bytes} {unbreak : Bytes} {sites : List Bytes} {ls : List FilterList} {r : ScriptRun}
    (h : generateRegions E fetch unbreak sites ls = .ok r) :
    ∃ done rest, ls = done ++ rest ∧ Pointwise (RegionFile E fetch unbreak sites) done r.files ∧ (r.finished = true ↔ rest = []) ∧
      ∀ l, rest.head? = some l → fetch l.url = none := by
  induction ls generalizing r with
  | nil => cases h; exact ⟨[], [], rfl, .nil, by simp, by simp⟩
  | cons l ls ih =>
    unfold generateRegions at h
    cases hb : fetch l.url with
    | none =>
      rw [hb] at h
      cases h
      exact ⟨[], l :: ls, rfl, .nil, by simp, by simp [hb]⟩
    | some body =>
      rw [hb] at h
      dsimp only at h
      obtain ⟨file, h1, h⟩ := Res.bind_eq_ok.1 h
      obtain ⟨r2, h2, h⟩ := Res.bind_eq_ok.1 h
      cases h
      obtain ⟨done, rest, rfl, h3, h4, h5⟩ := ih h2
      exact ⟨l :: done, rest, rfl, .cons ⟨rfl, body, hb, h1⟩ h3, h4, h5⟩

/-- **C68**: the files made of the tables have different names, and so have the manifests. -/
theorem C68_names_distinct (dir : Bytes) :
    dataFileNames.Nodup ∧ ((defaultManifest dir :: regionalManifests dir).map (·.1)).Nodup := by
  refine ⟨by decide +kernel, ?_⟩
  have h : (bs%"/default-manifest.json" :: regionLists.map fun l => bs%"/" ++ l.uuid ++ bs%"-manifest.json").Nodup := by decide +kernel
  have e : (defaultManifest dir :: regionalManifests dir).map (·.1) =
      (bs%"/default-manifest.json" :: regionLists.map fun l => bs%"/" ++ l.uuid ++ bs%"-manifest.json").map (dir ++ ·) := by
    simp [defaultManifest, regionalManifests, Function.comp_def]
  rw [e]
  refine List.Pairwise.map _ (fun a b hab e => hab (List.append_cancel_left e)) h

theorem pointwise_names {E : Env} {fetch : Bytes → Option Bytes} {unbreak : Bytes} {sites : List Bytes} {ls : List FilterList}
    {files : List (Bytes × DataFile)} (h : Pointwise (RegionFile E fetch unbreak sites) ls files) :
    files.map (·.1) = ls.map (fun l => l.uuid ++ bs%".dat") ∧ Available fetch ls ∧
      ∀ file ∈ files, ∃ l ∈ ls, RegionFile E fetch unbreak sites l file := by
  induction h with
  | nil => exact ⟨rfl, by simp [Available], by simp⟩
  | cons h _ ih =>
    obtain ⟨h1, h2, h3⟩ := ih
    refine ⟨by simp [h1, h.1], ?_, ?_⟩
    · intro k hk
      rcases List.mem_cons.1 hk with rfl | hk
      · exact ⟨_, h.2.choose_spec.1⟩
      · exact h2 k hk
    · intro file hf
      rcases List.mem_cons.1 hf with rfl | hf
      · exact ⟨_, by simp, h⟩
      · obtain ⟨l, hl, hr⟩ := h3 file hf
        exact ⟨l, by simp [hl], hr⟩

/-- **C68**: a run of the script writes the files one after the other, each of them with the data of
its own lists.  It writes all of them if every list can be downloaded, and stops early otherwise. -/
theorem C68_run {E : Env} {fetch : Bytes → Option Bytes} {unbreak : Bytes} {sites : List Bytes} {r : ScriptRun}
    (h : generateDataFiles E fetch unbreak sites = .ok r) :
    r.files.map (·.1) <+: dataFileNames ∧
    (∀ file ∈ r.files, RightContents E fetch unbreak sites file) ∧
    (r.finished = true ↔ Available fetch allLists) ∧
    (r.finished = true → r.files.map (·.1) = dataFileNames) := by
  have hav : Available fetch allLists ↔ Available fetch defaultLists ∧ Available fetch malwareLists ∧ Available fetch regionLists := by
    constructor
    · intro h
      exact ⟨fun l hl => h l (by simp [allLists, hl]), fun l hl => h l (by simp [allLists, hl]), fun l hl => h l (by simp [allLists, hl])⟩
    · rintro ⟨h1, h2, h3⟩ l hl
      simp only [allLists, List.mem_append] at hl
      rcases hl with (hl | hl) | hl
      · exact h1 l hl
      · exact h3 l hl
      · exact h2 l hl
  unfold generateDataFiles at h
  cases h1 : fetchAll fetch defaultLists with
  | none =>
    rw [h1] at h
    cases h
    have : ¬ Available fetch allLists := fun h => fetchAll_none.1 h1 (hav.1 h).1
    exact ⟨by simp, by simp, by simp [this], by simp⟩
  | some bodies =>
    rw [h1] at h
    dsimp only at h
    obtain ⟨file, h2, h⟩ := Res.bind_eq_ok.1 h
    have d1 : RightContents E fetch unbreak sites (bs%"ABPFilterParserData.dat", file) := .inl ⟨rfl, bodies, fetchAll_some h1, h2⟩
    cases h3 : fetchAll fetch malwareLists with
    | none =>
      rw [h3] at h
      cases h
      have : ¬ Available fetch allLists := fun h => fetchAll_none.1 h3 (hav.1 h).2.1
      exact ⟨by simp [dataFileNames], by simpa using d1, by simp [this], by simp⟩
    | some bodies2 =>
      rw [h3] at h
      dsimp only at h
      obtain ⟨file2, h4, h⟩ := Res.bind_eq_ok.1 h
      obtain ⟨r2, h5, h⟩ := Res.bind_eq_ok.1 h
      cases h
      have d2 : RightContents E fetch unbreak sites (bs%"SafeBrowsingData.dat", file2) := .inr (.inl ⟨rfl, bodies2, fetchAll_some h3, h4⟩)
      obtain ⟨done, rest, h6, h7, h8, h9⟩ := generateRegions_ok h5
      obtain ⟨n1, n2, n3⟩ := pointwise_names h7
      have a1 : Available fetch defaultLists := Classical.byContradiction fun hn => by rw [fetchAll_none.2 hn] at h1; cases h1
      have a2 : Available fetch malwareLists := Classical.byContradiction fun hn => by rw [fetchAll_none.2 hn] at h3; cases h3
      refine ⟨?_, ?_, ?_, ?_⟩
      · simp only [List.map_cons, n1, dataFileNames, h6, List.map_append, List.cons_prefix_cons, true_and]
        exact List.prefix_append _ _
      · intro f hf
        simp only [List.mem_cons] at hf
        rcases hf with rfl | rfl | hf
        · exact d1
        · exact d2
        · obtain ⟨l, hl, hr⟩ := n3 f hf
          exact .inr (.inr ⟨l, by simp [h6, hl], hr⟩)
      · show r2.finished = true ↔ _
        rw [h8, hav]
        constructor
        · rintro rfl
          rw [List.append_nil] at h6
          exact ⟨a1, a2, h6 ▸ n2⟩
        · rintro ⟨-, -, h⟩
          cases rest with
          | nil => rfl
          | cons l rest =>
            obtain ⟨body, hb⟩ := h l (by simp [h6])
            rw [h9 l rfl] at hb
            cases hb
      · intro hf
        have : rest = [] := h8.1 hf
        subst this
        rw [List.append_nil] at h6
        simp only [List.map_cons, n1, dataFileNames, h6]

/-- **C68**, for the last region only: in the end the header holds the bad fingerprints found with its list
(it is written anew for each file). -/
theorem C68_header_partial {E : Env} {fetch : Bytes → Option Bytes} {unbreak : Bytes} {sites : List Bytes} {r : ScriptRun}
    (h : generateDataFiles E fetch unbreak sites = .ok r) (hf : r.finished = true) :
    ∃ l body file, regionLists.getLast? = some l ∧ fetch l.url = some body ∧
      generateDataFile E (regionTexts none body unbreak) sites = .ok file ∧ r.badFingerprints = file.badFps := by
  obtain ⟨-, h1, -, h2⟩ := C68_run h
  have h2 := h2 hf
  have hl : (r.files.map (·.1)).getLast? = some (regionList39.uuid ++ bs%".dat") := by rw [h2]; decide +kernel
  rw [List.getLast?_map] at hl
  obtain ⟨file, h3, h4⟩ := Option.map_eq_some_iff.1 hl
  have hb : r.badFingerprints = file.2.badFps := by unfold ScriptRun.badFingerprints; rw [h3]
  rcases h1 file (List.mem_of_getLast? h3) with ⟨e, -⟩ | ⟨e, -⟩ | ⟨l, hl, e, body, h5, h6⟩
  · rw [e] at h4; exact absurd h4 (by decide)
  · rw [e] at h4; exact absurd h4 (by decide)
  · have : l.uuid = regionList39.uuid := List.append_cancel_right (e.symm.trans h4)
    have hl' : l = regionList39 := by
      have a := find_uuid (show l ∈ allLists by simp [allLists, hl])
      rw [this, find_uuid (show regionList39 ∈ allLists by decide +kernel)] at a
      exact (Option.some.inj a).symm
    subst hl'
    exact ⟨_, body, file.2, rfl, h5, h6, hb⟩

/-- the fingerprints a client has collected when its file is made -/
def collected (E : Env) (texts sites : List Bytes) : Res (Option (List Bytes)) := do
  let client ← makeClientFromStrings E false texts
  let client ← client.enableBadFingerprintDetection.checkSiteList sites
  pure client.badFps

theorem generateDataFile_collected {E : Env} {texts sites : List Bytes} {b : Option (List Bytes)} (h : collected E texts sites = .ok b)
    (h0 : ∀ t ∈ texts, 0 ∉ t) : ∃ r, generateDataFile E texts sites = .ok r ∧ r.badFps = b := by
  unfold collected at h
  obtain ⟨c, h1, h⟩ := Res.bind_eq_ok.1 h
  obtain ⟨c2, h2, h⟩ := Res.bind_eq_ok.1 h
  cases h
  obtain ⟨-, fs, hist, -⟩ := strings_history h1 h0
  obtain ⟨s, h3, -⟩ := C38_size hist true true
  have h4 : c2.serialize true true = .ok s := by
    have h2' := h2
    unfold Client.checkSiteList at h2'
    obtain ⟨⟨bs, c3⟩, h4, h2'⟩ := Res.bind_eq_ok.1 h2'
    cases h2'
    rw [alike_serialize (askAll_ok h4).1, enable_serialize, h3]
  refine ⟨⟨s.buffer, c2.badFps⟩, ?_, rfl⟩
  unfold generateDataFile
  rw [h1, Res.bind_ok, h2, Res.bind_ok, h4]
  rfl

theorem generateRegions_total {E : Env} {fetch : Bytes → Option Bytes} {unbreak : Bytes} {sites : List Bytes} {ls : List FilterList}
    (h : ∀ l ∈ ls, ∃ body r, fetch l.url = some body ∧ generateDataFile E (regionTexts none body unbreak) sites = .ok r) :
    ∃ r, generateRegions E fetch unbreak sites ls = .ok r := by
  induction ls with
  | nil => exact ⟨_, rfl⟩
  | cons l ls ih =>
    obtain ⟨body, file, h1, h2⟩ := h l (by simp)
    obtain ⟨r, h3⟩ := ih fun k hk => h k (by simp [hk])
    refine ⟨⟨(l.uuid ++ bs%".dat", file) :: r.files, r.finished⟩, ?_⟩
    unfold generateRegions
    rw [h1]
    dsimp only
    rw [h2, Res.bind_ok, h3]
    rfl

/-- One list has a rule, all others are empty. -/
def oneRule (url : Bytes) : Option Bytes := if url = defaultList0.url then some bs%"adbanner" else some []

theorem oneRule_run {E : Env} {site : Bytes} {b b' : Option (List Bytes)}
    (c1 : collected E (listTexts ((fetchAll oneRule defaultLists).getD [])) [site] = .ok b)
    (c2 : (collected E (listTexts []) [site]).isOk = true) (c3 : collected E (regionTexts none [] []) [site] = .ok b') :
    ∃ r, generateDataFiles E oneRule [] [site] = .ok r ∧ r.finished = true ∧ r.files.head?.map (fun f => f.2.badFps) = some b ∧
      r.badFingerprints = b' ∧ ∃ file, (bs%"SafeBrowsingData.dat", file) ∈ r.files := by
  have hreg : ∀ l ∈ regionLists, oneRule l.url = some [] := by
    have : (regionLists.all fun l => oneRule l.url == some []) = true := by decide +kernel
    intro l hl
    simpa using List.all_eq_true.1 this l hl
  obtain ⟨r1, h1, b1⟩ := generateDataFile_collected c1 (by decide +kernel)
  obtain ⟨b2, c2⟩ := Res.isOk_iff.1 c2
  obtain ⟨r2, h2, -⟩ := generateDataFile_collected c2 (by decide +kernel)
  obtain ⟨r3, h3, b3⟩ := generateDataFile_collected c3 (by decide +kernel)
  obtain ⟨rs, h4⟩ := generateRegions_total (E := E) (fetch := oneRule) (unbreak := []) (ls := regionLists) (sites := [site])
    fun l hl => ⟨[], r3, hreg l hl, h3⟩
  have hd : fetchAll oneRule defaultLists = some ((fetchAll oneRule defaultLists).getD []) := by decide +kernel
  have hr : generateDataFiles E oneRule [] [site] =
      .ok ⟨(bs%"ABPFilterParserData.dat", r1) :: (bs%"SafeBrowsingData.dat", r2) :: rs.files, rs.finished⟩ := by
    unfold generateDataFiles
    rw [hd]
    dsimp only
    rw [h1, Res.bind_ok]
    show ((generateDataFile E (listTexts []) _) >>= _) = _
    rw [h2, Res.bind_ok, h4]
    rfl
  have hfin : rs.finished = true := by
    refine (C68_run hr).2.2.1.2 ?_
    intro l _
    unfold oneRule
    split
    · exact ⟨_, rfl⟩
    · exact ⟨_, rfl⟩
  refine ⟨_, hr, hfin, by simp [b1], ?_, r2, by simp⟩
  obtain ⟨l, body, file, e1, e2, e3, e4⟩ := C68_header_partial hr hfin
  rw [e4]
  rw [hreg l (List.mem_of_getLast? e1)] at e2
  cases e2
  rw [h3] at e3
  cases e3
  exact b3

/-- the hypotheses of C68 can be met: a known list makes a client which blocks -/
example : (match makeClientFromListUUID toyEnv oneRule false bs%"67F880F5-7602-4042-8A3D-01481FD7437A" with
    | some r => (do let c ← r; let o ← c.query bs%"http://x.com/adbanner" 0 (some bs%"x.com"); pure o.block)
    | none => pure false) = .ok true := by decide +kernel

example : makeClientFromListUUID toyEnv oneRule false bs%"67F880F5-7602-4042-8A3D-01481FD7437B" = none :=
  C68_unknown _ _ _ (by
    have : (allLists.all fun l => l.uuid != bs%"67F880F5-7602-4042-8A3D-01481FD7437B") = true := by decide +kernel
    intro l hl
    simpa using List.all_eq_true.1 this l hl)

/-- a run that goes through to the end is in `C68_header_counterexample`; not every run does -/
example : ¬ Available (fun url => if url = regionList0.url then none else oneRule url) allLists := by
  intro h
  obtain ⟨b, hb⟩ := h regionList0 (by decide +kernel)
  simp at hb

/-- **C68** fails for the header with bad fingerprints: a fingerprint found with the first file is no longer
there at the end. -/
theorem C68_header_counterexample : ∃ r, generateDataFiles toyEnv oneRule [] [bs%"http://x.com/adbann"] = .ok r ∧ r.finished = true ∧
    r.files.head?.map (fun f => f.2.badFps) = some (some (toyEnv.bad ++ [bs%"adbann"])) ∧
    r.badFingerprints = some toyEnv.bad := by
  obtain ⟨r, h1, h2, h3, h4, -⟩ := oneRule_run (E := toyEnv) (site := bs%"http://x.com/adbann") (b := some (toyEnv.bad ++ [bs%"adbann"]))
    (b' := some toyEnv.bad) (by decide +kernel) (by decide +kernel) (by decide +kernel)
  exact ⟨r, h1, h2, h3, h4⟩

/-- **C68** fails for the file with malware hosts: there are no lists it could be made of, so a client
made of it blocks nothing. -/
theorem C68_empty_file_counterexample {E : Env} (hE : FixedBlooms E) (hb : ModerateBlooms E) {fetch : Bytes → Option Bytes} {unbreak : Bytes} {sites : List Bytes}
    {r : ScriptRun} (h : generateDataFiles E fetch unbreak sites = .ok r) {file : DataFile}
    (hf : (bs%"SafeBrowsingData.dat", file) ∈ r.files) :
    ∃ d, makeClientFromData E file.data = .ok (some d) ∧ ∀ url ctx dom, 0 ∉ url → ∃ o, d.query url ctx dom = .ok o ∧ o.block = false := by
  have hg : generateDataFile E [] sites = .ok file := by
    rcases (C68_run h).2.1 _ hf with ⟨e, -⟩ | ⟨-, bodies, hd, hg⟩ | ⟨l, hl, e, -⟩
    · exact absurd (show bs%"SafeBrowsingData.dat" = bs%"ABPFilterParserData.dat" from e) (by decide)
    · have hd : Pointwise _ ([] : List FilterList) bodies := hd
      cases hd
      exact hg
    · have : (regionLists.all fun l => l.uuid ++ bs%".dat" != bs%"SafeBrowsingData.dat") = true := by decide +kernel
      have := List.all_eq_true.1 this l hl
      simp only [bne_iff_ne, ne_eq] at this
      exact absurd e.symm this
  have hfit : Fits (Client.fresh E) := C67_fits hE hb (ops := []) (as := []) (by simp) rfl (by decide)
  obtain ⟨d, h1, h2⟩ := C63_data_file_partial hg (c := Client.fresh E) rfl (by simp) (by simp) hfit
  refine ⟨d, h1, fun url ctx dom h0 => ?_⟩
  obtain ⟨⟨o, ho, ha⟩, -⟩ := C32_empty_blocks_nothing (Client.fresh E) _ (.inl rfl) url ctx dom
  obtain ⟨o', h3, h4⟩ := (h2 url ctx dom h0).1 o ho
  refine ⟨o', h3, ?_⟩
  simp only [Outcome.answer, Answer.verdict.injEq] at ha
  rw [h4.block, ha.1]

/-- such a run exists, for an environment which meets the two conditions -/
example : FixedBlooms byteEnv ∧ ModerateBlooms byteEnv ∧ ∃ r file, generateDataFiles byteEnv oneRule [] [bs%"http://x.com/adbann"] = .ok r ∧
    (bs%"SafeBrowsingData.dat", file) ∈ r.files := by
  obtain ⟨b, hb⟩ := Res.isOk_iff.1 (show (collected byteEnv (listTexts ((fetchAll oneRule defaultLists).getD []))
    [bs%"http://x.com/adbann"]).isOk = true by decide +kernel)
  obtain ⟨b', hb'⟩ := Res.isOk_iff.1 (show (collected byteEnv (regionTexts none [] []) [bs%"http://x.com/adbann"]).isOk = true by decide +kernel)
  obtain ⟨r, h1, -, -, -, file, h2⟩ := oneRule_run hb (by decide +kernel) hb'
  exact ⟨byteEnv_fixed, byteEnv_moderate, r, file, h1, h2⟩

/-! ### C69: manifests -/

/-- one step of `jsonTokens`: the tokens that are complete, and the next state -/
def jsonStep : JsonState → Byte → Option (List JsonToken × JsonState)
  | .between, c =>
    if jsonSpace c then some ([], .between)
    else if c = ch%'"' then some ([], .string [])
    else if isDigit c then some ([], .number (c.toNat - 48))
    else (jsonPunctuation c).map fun t => ([t], .between)
  | .string w, c =>
    if c = ch%'"' then some ([.value (.string w)], .between)
    else if c = ch%'\\' then some ([], .escape w)
    else if c < 0x20 then none
    else some ([], .string (w ++ [c]))
  | .escape w, c => (jsonEscape c).map fun b => ([], .string (w ++ [b]))
  | .number n, c =>
    if isDigit c then (if n = 0 then none else some ([], .number (10 * n + (c.toNat - 48))))
    else if jsonSpace c then some ([.value (.number n)], .between)
    else (jsonPunctuation c).map fun t => ([.value (.number n), t], .between)

def jsonScan : JsonState → Bytes → Option (List JsonToken × JsonState)
  | st, [] => some ([], st)
  | st, c :: s =>
    match jsonStep st c with
    | none => none
    | some (ts, st) => (jsonScan st s).map fun x => (ts ++ x.1, x.2)

theorem jsonTokens_cons (st : JsonState) (c : Byte) (s : Bytes) :
    jsonTokens st (c :: s) = (jsonStep st c).bind fun x => (jsonTokens x.2 s).map (x.1 ++ ·) := by
  cases st with
  | between =>
    simp only [jsonTokens, jsonStep]
    split
    · simp
    · split
      · simp
      · split
        · simp
        · cases jsonPunctuation c <;> rfl
  | string w =>
    simp only [jsonTokens, jsonStep]
    split
    · rfl
    · split
      · simp
      · split
        · rfl
        · simp
  | escape w =>
    simp only [jsonTokens, jsonStep]
    cases jsonEscape c <;> simp
  | number n =>
    simp only [jsonTokens, jsonStep]
    split
    · split
      · rfl
      · simp
    · split
      · rfl
      · cases jsonPunctuation c <;> rfl

theorem jsonTokens_append {st st' : JsonState} {a : Bytes} {ts : List JsonToken} (h : jsonScan st a = some (ts, st')) (b : Bytes) :
    jsonTokens st (a ++ b) = (jsonTokens st' b).map (ts ++ ·) := by
  induction a generalizing st ts with
  | nil => cases h; rw [List.nil_append]; cases jsonTokens st' b <;> rfl
  | cons c a ih =>
    rw [List.cons_append, jsonTokens_cons]
    rw [jsonScan] at h
    cases h1 : jsonStep st c with
    | none => rw [h1] at h; cases h
    | some x =>
      rw [h1] at h
      obtain ⟨y, h2, h3⟩ := Option.map_eq_some_iff.1 h
      cases h3
      rw [Option.bind_some, ih h2, Option.map_map]
      congr 1
      funext l
      simp

theorem jsonScan_text {s : Bytes} (h : JsonText s) (w : Bytes) : jsonScan (.string w) s = some ([], .string (w ++ s)) := by
  induction s generalizing w with
  | nil => simp [jsonScan]
  | cons c s ih =>
    obtain ⟨h1, h2, h3⟩ := h c (by simp)
    have h4 : jsonStep (.string w) c = some ([], .string (w ++ [c])) := by rw [jsonStep, if_neg h1, if_neg h2, if_neg h3]
    rw [jsonScan, h4]
    dsimp only
    rw [ih fun d hd => h d (by simp [hd])]
    simp

/-- **C69**: the text of a manifest is JSON, and its members are the five expected ones, whatever the
title and the key, as long as they contain no quotes, backslashes and control bytes. -/
theorem C69_manifest {title key : Bytes} (ht : JsonText title) (hk : JsonText key) :
    readJson (manifestText title key) = some (manifestMembers title key) := by
  have e : manifestText title key =
      bs%"{\n  \"description\": \"Brave Ad Block Updater extension\",\n  \"key\": \"" ++ (key ++
      (bs%"\",\n  \"manifest_version\": 2,\n  \"name\": \"Brave Ad Block Updater (" ++ (title ++
      bs%")\",\n  \"version\": \"0.0.0\"\n}\n"))) := by
    simp [manifestText]
  have h1 : jsonScan .between bs%"{\n  \"description\": \"Brave Ad Block Updater extension\",\n  \"key\": \"" =
      some ([.open, .value (.string bs%"description"), .colon, .value (.string bs%"Brave Ad Block Updater extension"), .comma,
        .value (.string bs%"key"), .colon], .string []) := by decide +kernel
  have h2 : jsonScan (.string key) bs%"\",\n  \"manifest_version\": 2,\n  \"name\": \"Brave Ad Block Updater (" =
      some ([.value (.string key), .comma, .value (.string bs%"manifest_version"), .colon, .value (.number 2), .comma,
        .value (.string bs%"name"), .colon], .string bs%"Brave Ad Block Updater (") := by rfl
  have h3 : ∀ w, jsonTokens (.string w) bs%")\",\n  \"version\": \"0.0.0\"\n}\n" =
      some [.value (.string (w ++ bs%")")), .comma, .value (.string bs%"version"), .colon, .value (.string bs%"0.0.0"), .close] := by
    intro w; rfl
  unfold readJson
  rw [e, jsonTokens_append h1, jsonTokens_append (jsonScan_text hk []), List.nil_append, jsonTokens_append h2,
    jsonTokens_append (jsonScan_text ht _), h3]
  rfl

/-- **C69**: this holds for the manifests of all lists in the tables. -/
theorem C69_all_manifests (dir : Bytes) :
    readJson (defaultManifest dir).2 = some (manifestMembers bs%"Default" defaultBase64PublicKey) ∧
    Pointwise (fun l m => m.1 = dir ++ bs%"/" ++ l.uuid ++ bs%"-manifest.json" ∧
      readJson m.2 = some (manifestMembers l.title l.base64PublicKey)) regionLists (regionalManifests dir) := by
  refine ⟨C69_manifest (by unfold JsonText; decide +kernel) (by unfold JsonText; decide +kernel), ?_⟩
  have h : (regionLists.all fun l => (l.title ++ l.base64PublicKey).all fun c => c != ch%'"' && c != ch%'\\' && !(c < 0x20)) = true := by
    decide +kernel
  unfold regionalManifests
  generalize regionLists = ls at h
  induction ls with
  | nil => exact .nil
  | cons l ls ih =>
    rw [List.all_cons, Bool.and_eq_true] at h
    refine .cons ⟨rfl, C69_manifest ?_ ?_⟩ (ih h.2) <;>
    · intro c hc
      have := List.all_eq_true.1 h.1 c (by simp [hc])
      simpa [and_assoc] using this

/-- the hypotheses matter: a title with a quote does not give JSON -/
example : readJson (manifestText bs%"the \"best\" list" bs%"AAAA") = none := by decide +kernel

example : readJson (manifestText bs%"Default" bs%"AAAA") = some (manifestMembers bs%"Default" bs%"AAAA") := by decide +kernel

end AdBlock
