import Verif.SpecUpload
import Verif.Props.Lists
/-
Copying the data files to where they are downloaded from (C78).
-/
namespace AdBlock
open Spec

/-- an object stored, if the file can be read -/
def putJob (disk : Bytes → Option Bytes) (j : UploadJob) (b : Bucket) : Bucket :=
  match disk j.localFile with
  | some c => b.put j.key c
  | none => b

/-- all these objects stored, one after the other -/
def putAll (disk : Bytes → Option Bytes) : List UploadJob → Bucket → Bucket
  | [], b => b
  | j :: jobs, b => putAll disk jobs (putJob disk j b)

/-- what a run leaves is the first few objects stored, and all of them if it finished -/
theorem runUploads_prefix (disk : Bytes → Option Bytes) (jobs : List UploadJob) (events : List UploadEvent) (b : Bucket) :
    ∃ stored, stored <+: jobs ∧ (∀ j ∈ stored, ∃ c, disk j.localFile = some c) ∧ (runUploads disk jobs events b).1 = putAll disk stored b ∧
      ((runUploads disk jobs events b).2 = .finished → stored = jobs) := by
  induction jobs generalizing events b with
  | nil => exact ⟨[], List.prefix_rfl, by simp, by simp [runUploads, putAll], fun _ => rfl⟩
  | cons job jobs ih =>
    cases events with
    | nil => exact ⟨[], List.nil_prefix, by simp, by simp [runUploads, putAll], by simp [runUploads]⟩
    | cons event events =>
      cases hd : disk job.localFile with
      | none => exact ⟨[], List.nil_prefix, by simp, by simp [runUploads, putAll, hd], by simp [runUploads, hd]⟩
      | some c =>
        cases event with
        | ended =>
          obtain ⟨stored, h1, h2, h3, h4⟩ := ih events (b.put job.key c)
          refine ⟨job :: stored, List.cons_prefix_cons.2 ⟨rfl, h1⟩, ?_, ?_, ?_⟩
          · intro j hj
            rcases List.mem_cons.1 hj with rfl | hj
            · exact ⟨c, hd⟩
            · exact h2 j hj
          · simp only [runUploads, hd, h3, putAll, putJob]
          · intro h
            simp only [runUploads, hd] at h
            rw [h4 h]
        | error s =>
          cases s with
          | true =>
            refine ⟨[job], ⟨jobs, rfl⟩, by simp [hd], ?_, by simp [runUploads, hd]⟩
            simp only [runUploads, hd, putAll, putJob]
          | false =>
            exact ⟨[], List.nil_prefix, by simp, by simp [runUploads, putAll, hd], by simp [runUploads, hd]⟩

theorem putJob_other {disk : Bytes → Option Bytes} {j : UploadJob} {b : Bucket} {k : Bytes} (h : j.key ≠ k) : putJob disk j b k = b k := by
  unfold putJob
  cases disk j.localFile with
  | some c => exact if_neg fun e => h e.symm
  | none => rfl

theorem putJob_same {disk : Bytes → Option Bytes} {j : UploadJob} {b : Bucket} {c : Bytes} (h : disk j.localFile = some c) :
    putJob disk j b j.key = some c := by
  unfold putJob
  rw [h]
  exact if_pos rfl

theorem putAll_other {disk : Bytes → Option Bytes} {jobs : List UploadJob} {b : Bucket} {k : Bytes} (h : ∀ j ∈ jobs, j.key ≠ k) :
    putAll disk jobs b k = b k := by
  induction jobs generalizing b with
  | nil => rfl
  | cons j jobs ih =>
    unfold putAll
    rw [ih fun x hx => h x (by simp [hx]), putJob_other (h j (by simp))]

/-- what is stored stays, if it is only stored again from files with the same contents -/
theorem putAll_kept {disk : Bytes → Option Bytes} {jobs : List UploadJob} {b : Bucket} {k c : Bytes}
    (h : ∀ j ∈ jobs, j.key = k → disk j.localFile = some c) (hb : b k = some c) : putAll disk jobs b k = some c := by
  induction jobs generalizing b with
  | nil => exact hb
  | cons j jobs ih =>
    refine ih (fun x hx => h x (by simp [hx])) ?_
    by_cases e : j.key = k
    · rw [← e]
      exact putJob_same (h j (by simp) e)
    · rw [putJob_other e, hb]

theorem putAll_stored {disk : Bytes → Option Bytes} {jobs : List UploadJob} {b : Bucket}
    (hsame : ∀ j ∈ jobs, ∀ j' ∈ jobs, j.key = j'.key → j.localFile = j'.localFile) {j : UploadJob} (hj : j ∈ jobs) {c : Bytes}
    (hc : disk j.localFile = some c) : putAll disk jobs b j.key = some c := by
  have h : ∀ x ∈ jobs, x.key = j.key → disk x.localFile = some c := fun x hx e => by rw [hsame x hx j hj e, hc]
  clear hsame
  induction jobs generalizing b with
  | nil => cases hj
  | cons x jobs ih =>
    rcases List.mem_cons.1 hj with rfl | hj
    · unfold putAll
      exact putAll_kept (fun x hx => h x (by simp [hx])) (putJob_same hc)
    · exact ih hj fun x hx => h x (by simp [hx])

/-! ### The keys -/

theorem productionKey_injective {n m : Bytes} (h : productionKey n = productionKey m) : n = m := List.append_cancel_left h

theorem production_not_backup (n d m : Bytes) : productionKey n ≠ backupKey d m := by
  intro h
  simp [productionKey, backupKey] at h

theorem backupKey_injective {d d' n m : Bytes} (hd : ch%'/' ∉ d) (hd' : ch%'/' ∉ d') (h : backupKey d n = backupKey d' m) : d = d' ∧ n = m := by
  unfold backupKey at h
  rw [List.append_assoc, List.append_assoc, List.append_assoc, List.append_assoc] at h
  replace h := List.append_cancel_left h
  induction d generalizing d' with
  | nil =>
    cases d' with
    | nil => exact ⟨rfl, by simpa using h⟩
    | cons c d' => simp at h; exact absurd h.1 fun e => hd' (by simp [← e])
  | cons c d ih =>
    cases d' with
    | nil => simp at h; exact absurd h.1 fun e => hd (by simp [e])
    | cons c' d' =>
      simp only [List.cons_append, List.cons.injEq] at h
      obtain ⟨e1, e2⟩ := ih (fun e => hd (by simp [e])) (fun e => hd' (by simp [e])) h.2
      exact ⟨by rw [h.1, e1], e2⟩

theorem outJobs_prod (date name : Bytes) :
    outJobs true date name = [⟨outFile name, productionKey name⟩, ⟨outFile name, backupKey date name⟩] := rfl

theorem outJobs_test (date name : Bytes) : outJobs false date name = [⟨outFile name, testKey name⟩] := rfl

theorem datJobs_prod (date dat : Bytes) :
    datJobs true date dat = [⟨dat, productionKey (pathBasename dat)⟩, ⟨dat, backupKey date (pathBasename dat)⟩] := rfl

theorem backupKey_same {d n m : Bytes} (h : backupKey d n = backupKey d m) : n = m := List.append_cancel_left h

theorem mem_wholeJobs {date : Bytes} {names : List Bytes} {j : UploadJob} (h : j ∈ names.flatMap (outJobs true date)) :
    ∃ n ∈ names, j = ⟨outFile n, productionKey n⟩ ∨ j = ⟨outFile n, backupKey date n⟩ := by
  obtain ⟨n, hn, h⟩ := List.mem_flatMap.1 h
  rw [outJobs_prod] at h
  exact ⟨n, hn, by simpa using h⟩

theorem wholeJobs_same (date : Bytes) (names : List Bytes) : ∀ j ∈ names.flatMap (outJobs true date), ∀ j' ∈ names.flatMap (outJobs true date),
    j.key = j'.key → j.localFile = j'.localFile := by
  intro j hj j' hj' e
  obtain ⟨n, _, hj⟩ := mem_wholeJobs hj
  obtain ⟨m, _, hj'⟩ := mem_wholeJobs hj'
  rcases hj with rfl | rfl <;> rcases hj' with rfl | rfl
  · rw [productionKey_injective e]
  · exact absurd e (production_not_backup _ _ _)
  · exact absurd e.symm (production_not_backup _ _ _)
  · rw [backupKey_same e]

/-- the first few of the jobs: those for the first few files, and perhaps the first one for the next file -/
theorem prefix_pairs {date : Bytes} {names : List Bytes} {stored : List UploadJob} (h : stored <+: names.flatMap (outJobs true date)) :
    ∃ done rest, names = done ++ rest ∧ (stored = done.flatMap (outJobs true date) ∨
      ∃ n rest', rest = n :: rest' ∧ stored = done.flatMap (outJobs true date) ++ [⟨outFile n, productionKey n⟩]) := by
  induction names generalizing stored with
  | nil =>
    obtain rfl : stored = [] := by simpa using h
    exact ⟨[], [], rfl, .inl rfl⟩
  | cons n names ih =>
    rw [List.flatMap_cons, outJobs_prod] at h
    match stored, h with
    | [], _ => exact ⟨[], n :: names, rfl, .inl rfl⟩
    | [x], h =>
      simp only [List.cons_append, List.cons_prefix_cons] at h
      exact ⟨[], n :: names, rfl, .inr ⟨n, names, rfl, by simp [h.1]⟩⟩
    | x :: y :: stored, h =>
      simp only [List.cons_append, List.nil_append, List.cons_prefix_cons] at h
      obtain ⟨rfl, rfl, h⟩ := h
      obtain ⟨done, rest, e, h⟩ := ih h
      refine ⟨n :: done, rest, by rw [e]; rfl, ?_⟩
      rcases h with h | ⟨m, rest', h1, h2⟩
      · exact .inl (by rw [h, List.flatMap_cons, outJobs_prod]; rfl)
      · exact .inr ⟨m, rest', h1, by rw [h2, List.flatMap_cons, outJobs_prod]; rfl⟩

theorem whole_jobs {u : UploadRun} {names : List Bytes} (h : WholeRun u names) (b : Bucket) :
    u.run b = runUploads u.disk (names.flatMap (outJobs true u.date)) u.events b := by
  obtain ⟨h1, h2, h3⟩ := h
  unfold UploadRun.run uploadJobs
  rw [h1, h2, h3]
  rfl

theorem published_all {disk : Bytes → Option Bytes} {names : List Bytes} {date : Bytes} {jobs : List UploadJob} {b : Bucket}
    (hsame : ∀ j ∈ jobs, ∀ j' ∈ jobs, j.key = j'.key → j.localFile = j'.localFile)
    (hread : ∀ j ∈ jobs, ∃ c, disk j.localFile = some c) (hin : ∀ j ∈ names.flatMap (outJobs true date), j ∈ jobs) :
    ∀ name ∈ names, Published (disk (outFile name)) date name (putAll disk jobs b) := by
  intro name hn
  have h1 := hin ⟨outFile name, productionKey name⟩ (List.mem_flatMap.2 ⟨name, hn, by simp [outJobs_prod]⟩)
  have h2 := hin ⟨outFile name, backupKey date name⟩ (List.mem_flatMap.2 ⟨name, hn, by simp [outJobs_prod]⟩)
  obtain ⟨c, hc⟩ := hread _ h1
  exact ⟨c, hc, putAll_stored hsame h1 hc, putAll_stored hsame h2 hc⟩

/-! ### The claims -/

/-- **C78**: a run for production that finishes has put every file where it is downloaded from, with a copy, and has
changed nothing else. -/
theorem C78_production {u : UploadRun} {names : List Bytes} (hw : WholeRun u names) {b b' : Bucket} (h : u.run b = (b', .finished)) :
    (∀ name ∈ names, Published (u.disk (outFile name)) u.date name b') ∧
    ∀ k, (∀ name ∈ names, k ≠ productionKey name ∧ k ≠ backupKey u.date name) → b' k = b k := by
  rw [whole_jobs hw] at h
  obtain ⟨stored, h1, h2, h3, h4⟩ := runUploads_prefix u.disk (names.flatMap (outJobs true u.date)) u.events b
  rw [h] at h3 h4
  obtain rfl := h4 rfl
  dsimp only at h3
  subst h3
  refine ⟨published_all (wholeJobs_same _ _) h2 fun _ hj => hj, fun k hk => putAll_other fun j hj e => ?_⟩
  obtain ⟨n, hn, rfl | rfl⟩ := mem_wholeJobs hj
  · exact (hk n hn).1 e.symm
  · exact (hk n hn).2 e.symm

/-- **C78**: however a run for production ends (an error, even one reported for an object that was stored, or the process
being stopped), the files before some point are in both places; of the files behind it at most the first one is where it
is downloaded from, and none has a copy; nothing else is changed. -/
theorem C78_interrupted {u : UploadRun} {names : List Bytes} (hw : WholeRun u names) (b : Bucket) :
    ∃ done rest, names = done ++ rest ∧
      (∀ name ∈ done, Published (u.disk (outFile name)) u.date name (u.run b).1) ∧
      (∀ name ∈ rest, name ∉ done → (u.run b).1 (backupKey u.date name) = b (backupKey u.date name) ∧
        ((u.run b).1 (productionKey name) = b (productionKey name) ∨
          rest.head? = some name ∧ ∃ c, u.disk (outFile name) = some c ∧ (u.run b).1 (productionKey name) = some c)) ∧
      (∀ k, (∀ name ∈ names, k ≠ productionKey name ∧ k ≠ backupKey u.date name) → (u.run b).1 k = b k) ∧
      ((u.run b).2 = .finished → rest = []) := by
  rw [whole_jobs hw]
  obtain ⟨stored, h1, h2, h3, h4⟩ := runUploads_prefix u.disk (names.flatMap (outJobs true u.date)) u.events b
  rw [h3]
  have hsame : ∀ j ∈ stored, ∀ j' ∈ stored, j.key = j'.key → j.localFile = j'.localFile := fun j hj j' hj' =>
    wholeJobs_same u.date names j (h1.subset hj) j' (h1.subset hj')
  have hother : ∀ k, (∀ name ∈ names, k ≠ productionKey name ∧ k ≠ backupKey u.date name) → putAll u.disk stored b k = b k := by
    refine fun k hk => putAll_other fun j hj e => ?_
    obtain ⟨n, hn, rfl | rfl⟩ := mem_wholeJobs (h1.subset hj)
    · exact (hk n hn).1 e.symm
    · exact (hk n hn).2 e.symm
  obtain ⟨done, rest, e, h⟩ := prefix_pairs h1
  refine ⟨done, rest, e, published_all hsame h2 ?_, ?_, hother, ?_⟩
  · rcases h with rfl | ⟨m, rest', _, rfl⟩
    · exact fun _ hj => hj
    · exact fun _ hj => by simp [hj]
  · intro name hn hnd
    rcases h with rfl | ⟨m, rest', hr, rfl⟩
    · have : ∀ j ∈ done.flatMap (outJobs true u.date), j.key ≠ backupKey u.date name ∧ j.key ≠ productionKey name := by
        intro j hj
        obtain ⟨n, hn', rfl | rfl⟩ := mem_wholeJobs hj
        · exact ⟨production_not_backup _ _ _, fun e => hnd (productionKey_injective e ▸ hn')⟩
        · exact ⟨fun e => hnd (backupKey_same e ▸ hn'), fun e => production_not_backup _ _ _ e.symm⟩
      exact ⟨putAll_other fun j hj => (this j hj).1, .inl (putAll_other fun j hj => (this j hj).2)⟩
    · have : ∀ j ∈ done.flatMap (outJobs true u.date), j.key ≠ backupKey u.date name ∧ j.key ≠ productionKey name := by
        intro j hj
        obtain ⟨n, hn', rfl | rfl⟩ := mem_wholeJobs hj
        · exact ⟨production_not_backup _ _ _, fun e => hnd (productionKey_injective e ▸ hn')⟩
        · exact ⟨fun e => hnd (backupKey_same e ▸ hn'), fun e => production_not_backup _ _ _ e.symm⟩
      refine ⟨putAll_other fun j hj => ?_, ?_⟩
      · rcases List.mem_append.1 hj with hj | hj
        · exact (this j hj).1
        · rw [List.mem_singleton.1 hj]
          exact production_not_backup _ _ _
      · by_cases hm : m = name
        · subst hm
          right
          obtain ⟨c, hc⟩ := h2 ⟨outFile m, productionKey m⟩ (by simp)
          exact ⟨by rw [hr]; rfl, c, hc, putAll_stored hsame (j := ⟨outFile m, productionKey m⟩) (by simp) hc⟩
        · left
          refine putAll_other fun j hj => ?_
          rcases List.mem_append.1 hj with hj | hj
          · exact (this j hj).2
          · rw [List.mem_singleton.1 hj]
            exact fun e => hm (productionKey_injective e)
  · intro hf
    have hs := h4 hf
    subst e
    rcases h with rfl | ⟨m, rest', hr, rfl⟩
    · rw [List.flatMap_append] at hs
      have := congrArg List.length hs
      cases rest with
      | nil => rfl
      | cons x rest => simp [outJobs_prod] at this
    · subst hr
      rw [List.flatMap_append] at hs
      have := congrArg List.length hs
      simp [outJobs_prod] at this

theorem pathBasename_named {path name : Bytes} (h : NamedBy path name) : pathBasename path = name := by
  obtain ⟨h1, h2, h3⟩ := h
  have hr : ∃ rest, path.reverse = name.reverse ++ rest ∧ (rest = [] ∨ ∃ r, rest = ch%'/' :: r) := by
    rcases h3 with rfl | ⟨dir, rfl⟩
    · exact ⟨[], by simp, .inl rfl⟩
    · exact ⟨ch%'/' :: dir.reverse, by simp, .inr ⟨_, rfl⟩⟩
  obtain ⟨rest, e, hrest⟩ := hr
  have hne : name.reverse ≠ [] := by simpa using h1
  have hall : ∀ c ∈ name.reverse, (c != ch%'/') = true := fun c hc => by
    simp only [bne_iff_ne, ne_eq]
    rintro rfl
    exact h2 (by simpa using hc)
  unfold pathBasename
  rw [e]
  have hdrop : (name.reverse ++ rest).dropWhile (· == ch%'/') = name.reverse ++ rest := by
    cases hn : name.reverse with
    | nil => exact absurd hn hne
    | cons c cs =>
      have := hall c (by simp [hn])
      rw [List.cons_append, List.dropWhile_cons, if_neg]
      simpa using this
  rw [hdrop, List.takeWhile_append_of_pos hall]
  have : rest.takeWhile (· != ch%'/') = [] := by
    rcases hrest with rfl | ⟨r, rfl⟩
    · rfl
    · rfl
  rw [this]
  simp

theorem single_jobs {u : UploadRun} {path name : Bytes} (h : SingleRun u path) (hn : NamedBy path name) (b : Bucket) :
    u.run b = runUploads u.disk [⟨path, productionKey name⟩, ⟨path, backupKey u.date name⟩] u.events b := by
  obtain ⟨h1, h2⟩ := h
  have hb := pathBasename_named hn
  have hp : path ≠ [] := by
    obtain ⟨h1, _, rfl | ⟨dir, rfl⟩⟩ := hn
    · exact h1
    · simp
  unfold UploadRun.run uploadJobs
  rw [h1, h2]
  cases path with
  | nil => exact absurd rfl hp
  | cons c cs =>
    dsimp only
    rw [datJobs_prod, hb]

/-- **C78**: a run for production of a single file that finishes has put it where it is downloaded from, with a copy, and
has changed nothing else. -/
theorem C78_single {u : UploadRun} {path name : Bytes} (hs : SingleRun u path) (hn : NamedBy path name) {b b' : Bucket}
    (h : u.run b = (b', .finished)) :
    Published (u.disk path) u.date name b' ∧ ∀ k, k ≠ productionKey name → k ≠ backupKey u.date name → b' k = b k := by
  rw [single_jobs hs hn] at h
  obtain ⟨stored, h1, h2, h3, h4⟩ := runUploads_prefix u.disk [⟨path, productionKey name⟩, ⟨path, backupKey u.date name⟩] u.events b
  rw [h] at h3 h4
  obtain rfl := h4 rfl
  dsimp only at h3
  subst h3
  obtain ⟨c, hc⟩ := h2 ⟨path, productionKey name⟩ (by simp)
  have hsame : ∀ j ∈ [(⟨path, productionKey name⟩ : UploadJob), ⟨path, backupKey u.date name⟩],
      ∀ j' ∈ [(⟨path, productionKey name⟩ : UploadJob), ⟨path, backupKey u.date name⟩], j.key = j'.key → j.localFile = j'.localFile := by
    simp
  refine ⟨⟨c, hc, putAll_stored hsame (j := ⟨path, productionKey name⟩) (by simp) hc,
    putAll_stored hsame (j := ⟨path, backupKey u.date name⟩) (by simp) hc⟩, fun k h1 h2 => putAll_other ?_⟩
  simp only [List.mem_cons, List.not_mem_nil, or_false, forall_eq_or_imp, forall_eq]
  exact ⟨Ne.symm h1, Ne.symm h2⟩

/-- **C78**: for production it makes no difference whether a file in `out` is named, or is the only one there. -/
theorem C78_single_as_whole {u v : UploadRun} {name : Bytes} (hne : name ≠ []) (hn : ch%'/' ∉ name) (hu : SingleRun u (outFile name))
    (hv : WholeRun v [name]) (hd : u.date = v.date) (hk : u.disk = v.disk) (he : u.events = v.events) (b : Bucket) : u.run b = v.run b := by
  rw [whole_jobs hv, single_jobs hu ⟨hne, hn, .inr ⟨bs%"out", rfl⟩⟩, hd, hk, he]
  rfl

/-- the keys a run may write to -/
theorem run_keys (u : UploadRun) (b : Bucket) (k : Bytes) (h : ∀ jobs, uploadJobs u.options u.date u.out = some jobs → ∀ j ∈ jobs, j.key ≠ k) :
    (u.run b).1 k = b k := by
  unfold UploadRun.run
  cases hj : uploadJobs u.options u.date u.out with
  | none => rfl
  | some jobs =>
    obtain ⟨stored, h1, _, h3, _⟩ := runUploads_prefix u.disk jobs u.events b
    dsimp only
    rw [h3]
    exact putAll_other fun j hm => h jobs hj j (h1.subset hm)

/-- the keys of a run, with the names of the files -/
theorem jobs_keys {u : UploadRun} {jobs : List UploadJob} (h : uploadJobs u.options u.date u.out = some jobs) {j : UploadJob} (hj : j ∈ jobs) :
    if u.options.prod then ∃ name, j.key = productionKey name ∨ j.key = backupKey u.date name else bs%"test/" <+: j.key := by
  unfold uploadJobs at h
  split at h
  · cases h
    unfold datJobs at hj
    split at hj
    · rename_i hp
      rw [if_pos hp]
      simp only [List.mem_cons, List.not_mem_nil, or_false] at hj
      rcases hj with rfl | rfl
      · exact ⟨_, .inl rfl⟩
      · exact ⟨_, .inr rfl⟩
    · rename_i hp
      rw [if_neg hp, List.mem_singleton.1 hj]
      exact ⟨_, rfl⟩
  · obtain ⟨names, _, rfl⟩ := Option.map_eq_some_iff.1 h
    obtain ⟨n, _, hj⟩ := List.mem_flatMap.1 hj
    unfold outJobs at hj
    split at hj
    · rename_i hp
      rw [if_pos hp]
      simp only [List.mem_cons, List.not_mem_nil, or_false] at hj
      rcases hj with rfl | rfl
      · exact ⟨n, .inl rfl⟩
      · exact ⟨n, .inr rfl⟩
    · rename_i hp
      rw [if_neg hp, List.mem_singleton.1 hj]
      exact ⟨_, rfl⟩

/-- **C78**: a run that is not for production changes nothing outside `test/`, however it ends. -/
theorem C78_test_only {u : UploadRun} (hp : u.options.prod = false) (b : Bucket) {k : Bytes} (hk : ¬ bs%"test/" <+: k) :
    (u.run b).1 k = b k := by
  refine run_keys u b k fun jobs h j hj e => hk ?_
  have := jobs_keys h hj
  rw [if_neg (by simp [hp])] at this
  exact e ▸ this

/-- **C78**: a run for production changes nothing but the data files and the copies with its own date, however it ends. -/
theorem C78_production_only {u : UploadRun} (hp : u.options.prod = true) (b : Bucket) {k : Bytes}
    (hk : ∀ name, k ≠ productionKey name ∧ k ≠ backupKey u.date name) : (u.run b).1 k = b k := by
  refine run_keys u b k fun jobs h j hj e => ?_
  have := jobs_keys h hj
  rw [if_pos hp] at this
  obtain ⟨name, h | h⟩ := this
  · exact (hk name).1 (e ▸ h)
  · exact (hk name).2 (e ▸ h)

/-- how the uploads end -/
theorem runUploads_finished (disk : Bytes → Option Bytes) (jobs : List UploadJob) (events : List UploadEvent) (b : Bucket) :
    (runUploads disk jobs events b).2 = .finished ↔
      (∀ j ∈ jobs, disk j.localFile ≠ none) ∧ ∀ i, i < jobs.length → events[i]? = some .ended := by
  induction jobs generalizing events b with
  | nil => simp [runUploads]
  | cons job jobs ih =>
    cases events with
    | nil =>
      simp only [runUploads]
      exact ⟨fun h => (nomatch h), fun h => nomatch h.2 0 (by simp)⟩
    | cons event events =>
      cases hd : disk job.localFile with
      | none =>
        simp only [runUploads, hd]
        exact ⟨fun h => (nomatch h), fun h => absurd hd (h.1 job (by simp))⟩
      | some contents =>
        match event with
        | .ended =>
          simp only [runUploads, hd]
          rw [ih]
          constructor
          · rintro ⟨h1, h2⟩
            refine ⟨fun j hj => ?_, fun i hi => ?_⟩
            · rcases List.mem_cons.1 hj with rfl | hj
              · simp [hd]
              · exact h1 j hj
            · cases i with
              | zero => rfl
              | succ i => exact h2 i (by simpa using hi)
          · exact fun h => ⟨fun j hj => h.1 j (by simp [hj]), fun i hi => h.2 (i + 1) (by simpa using hi)⟩
        | .error true =>
          simp only [runUploads, hd]
          exact ⟨fun h => (nomatch h), fun h => nomatch h.2 0 (by simp)⟩
        | .error false =>
          simp only [runUploads, hd]
          exact ⟨fun h => (nomatch h), fun h => nomatch h.2 0 (by simp)⟩

theorem runUploads_error (disk : Bytes → Option Bytes) (jobs : List UploadJob) (events : List UploadEvent) (b : Bucket) {i : Nat} {stored : Bool}
    (hi : i < jobs.length) (he : events[i]? = some (.error stored)) : (runUploads disk jobs events b).2 = .failed := by
  induction jobs generalizing events b i with
  | nil => simp at hi
  | cons job jobs ih =>
    cases events with
    | nil => simp at he
    | cons event events =>
      cases hd : disk job.localFile with
      | none => simp only [runUploads, hd]
      | some contents =>
        match event with
        | .ended =>
          simp only [runUploads, hd]
          cases i with
          | zero => cases he
          | succ i => exact ih events _ (by simpa using hi) he
        | .error true => simp only [runUploads, hd]
        | .error false => simp only [runUploads, hd]

theorem runUploads_unreadable (disk : Bytes → Option Bytes) (jobs : List UploadJob) (events : List UploadEvent) (b : Bucket)
    (hl : jobs.length ≤ events.length) {j : UploadJob} (hj : j ∈ jobs) (hd : disk j.localFile = none) :
    (runUploads disk jobs events b).2 = .failed := by
  induction jobs generalizing events b with
  | nil => cases hj
  | cons job jobs ih =>
    cases events with
    | nil => simp at hl
    | cons event events =>
      cases hd' : disk job.localFile with
      | none => simp only [runUploads, hd']
      | some contents =>
        match event with
        | .ended =>
          simp only [runUploads, hd']
          rcases List.mem_cons.1 hj with rfl | hj
          · rw [hd] at hd'
            cases hd'
          · exact ih events _ (by simpa using hl) hj
        | .error true => simp only [runUploads, hd']
        | .error false => simp only [runUploads, hd']

theorem wholeJobs_length (date : Bytes) (names : List Bytes) : (names.flatMap (outJobs true date)).length = 2 * names.length := by
  induction names with
  | nil => rfl
  | cons n names ih =>
    rw [List.flatMap_cons, List.length_append, ih, outJobs_prod, List.length_cons]
    simp only [List.length_cons, List.length_nil]
    omega

/-- **C78**: how a run for production ends.  It finishes just if every file can be read and none of the two uploads per
file meets an error; if one of them does, or if a file cannot be read, the run ends with code 1, unless it is stopped
from outside before that. -/
theorem C78_exit_code {u : UploadRun} {names : List Bytes} (hw : WholeRun u names) (b : Bucket) :
    ((u.run b).2 = .finished ↔ (∀ name ∈ names, u.disk (outFile name) ≠ none) ∧ ∀ i, i < 2 * names.length → u.events[i]? = some .ended) ∧
    (∀ i stored, i < 2 * names.length → u.events[i]? = some (.error stored) → (u.run b).2 = .failed) ∧
    (∀ name ∈ names, u.disk (outFile name) = none → 2 * names.length ≤ u.events.length → (u.run b).2 = .failed) := by
  rw [whole_jobs hw]
  have hl := wholeJobs_length u.date names
  refine ⟨?_, fun i stored hi he => runUploads_error _ _ _ _ (by rw [hl]; exact hi) he, fun name hn hd he => ?_⟩
  · rw [runUploads_finished, hl]
    refine and_congr ⟨fun h name hn => ?_, fun h j hj => ?_⟩ Iff.rfl
    · exact h ⟨outFile name, productionKey name⟩ (List.mem_flatMap.2 ⟨name, hn, by simp [outJobs_prod]⟩)
    · obtain ⟨n, hn, hj⟩ := List.mem_flatMap.1 hj
      rw [outJobs_prod] at hj
      have := h n hn
      simp only [List.mem_cons, List.not_mem_nil, or_false] at hj
      rcases hj with rfl | rfl <;> exact this
  · exact runUploads_unreadable _ _ _ _ (by rw [hl]; exact he)
      (List.mem_flatMap.2 ⟨name, hn, by simp [outJobs_prod]⟩ : (⟨outFile name, productionKey name⟩ : UploadJob) ∈ _) hd

/-- an error for the copy, though it is stored -/
example (b : Bucket) : ((UploadRun.mk ⟨none, true⟩ bs%"2018" (some [bs%"a.dat"]) (fun _ => some bs%"x") [.ended, .error true]).run b).2 = .failed :=
  (C78_exit_code (names := [bs%"a.dat"]) ⟨rfl, rfl, rfl⟩ b).2.1 1 true (by decide) rfl

/-- **C78**: a run for the files in `out` while there is no such directory ends with an error and changes nothing. -/
theorem C78_no_directory {u : UploadRun} (hd : u.options.dat = none) (ho : u.out = none) (b : Bucket) :
    u.run b = (b, .failed) := by
  unfold UploadRun.run uploadJobs
  rw [hd, ho]
  rfl

example : (UploadRun.run ⟨⟨none, true⟩, bs%"2018", none, fun _ => none, [.ended]⟩ fun _ => some []) = (fun _ => some [], .failed) :=
  C78_no_directory rfl rfl _

/-- **C78**, for the files in `out`: a run for a test that finishes has put every file in the directory of the version
below `test/`. -/
theorem C78_test_partial {u : UploadRun} {names : List Bytes} (hp : u.options.prod = false) (hd : u.options.dat = none)
    (ho : u.out = some names) {b b' : Bucket} (h : u.run b = (b', .finished)) :
    ∀ name ∈ names, ∃ c, u.disk (outFile name) = some c ∧ b' (testKey name) = some c := by
  have e : u.run b = runUploads u.disk (names.flatMap (outJobs false u.date)) u.events b := by
    unfold UploadRun.run uploadJobs
    rw [hp, hd, ho]
    rfl
  rw [e] at h
  obtain ⟨stored, h1, h2, h3, h4⟩ := runUploads_prefix u.disk (names.flatMap (outJobs false u.date)) u.events b
  rw [h] at h3 h4
  obtain rfl := h4 rfl
  dsimp only at h3
  subst h3
  intro name hn
  have hm : ⟨outFile name, testKey name⟩ ∈ names.flatMap (outJobs false u.date) := List.mem_flatMap.2 ⟨name, hn, by simp [outJobs_test]⟩
  obtain ⟨c, hc⟩ := h2 _ hm
  refine ⟨c, hc, putAll_stored ?_ hm hc⟩
  intro j hj j' hj' e
  obtain ⟨n, _, hj⟩ := List.mem_flatMap.1 hj
  obtain ⟨m, _, hj'⟩ := List.mem_flatMap.1 hj'
  rw [outJobs_test, List.mem_singleton] at hj hj'
  subst hj hj'
  rw [List.append_cancel_left (as := bs%"test/4/") e]

/-- **C78** fails for a file named on the command line, in a test: it is not put in the directory of the version, where
the same file goes if it is not named. -/
theorem C78_test_counterexample (name : Bytes) (hne : name ≠ []) (hn : ch%'/' ∉ name) (date contents : Bytes) (disk : Bytes → Option Bytes)
    (hc : disk (outFile name) = some contents) :
    ∃ b, (UploadRun.mk ⟨some (outFile name), false⟩ date (some [name]) disk [.ended]).run (fun _ => none) = (b, .finished) ∧
      b (testKey name) = none := by
  have hb := pathBasename_named (path := outFile name) ⟨hne, hn, .inr ⟨bs%"out", rfl⟩⟩
  have e : (UploadRun.mk ⟨some (outFile name), false⟩ date (some [name]) disk [.ended]).run (fun _ => none) =
      runUploads disk [⟨outFile name, bs%"test/" ++ name⟩] [.ended] (fun _ => none) := by
    unfold UploadRun.run uploadJobs
    show runUploads disk (datJobs false date (outFile name)) _ _ = _
    unfold datJobs
    rw [hb]
    rfl
  rw [e]
  refine ⟨Bucket.put (fun _ => none) (bs%"test/" ++ name) contents, by simp only [runUploads, hc], ?_⟩
  refine if_neg fun h => ?_
  have := congrArg List.length h
  simp [testKey] at this
  omega

/-- **C78**: a copy stays what it is, whatever is uploaded later, as long as it is not for production with the same date. -/
theorem C78_backups_kept (us : List UploadRun) (b : Bucket) {date name : Bytes} (hd : ch%'/' ∉ date)
    (h : ∀ u ∈ us, ch%'/' ∉ u.date ∧ (u.options.prod = true → u.date ≠ date)) :
    uploadHistory us b (backupKey date name) = b (backupKey date name) := by
  unfold uploadHistory
  induction us generalizing b with
  | nil => rfl
  | cons u us ih =>
    rw [List.foldl_cons, ih _ fun v hv => h v (by simp [hv])]
    obtain ⟨h1, h2⟩ := h u (by simp)
    cases hp : u.options.prod with
    | true =>
      exact C78_production_only hp b fun n => ⟨fun e => production_not_backup _ _ _ e.symm, fun e => h2 hp (backupKey_injective hd h1 e).1.symm⟩
    | false => exact C78_test_only hp b (by simp [backupKey])

/-- **C78**: after a run for production that finished, and any number of tests, what is downloaded is what was in `out`
at that run, and there is a copy; whatever happened before. -/
theorem C78_history {us ts : List UploadRun} {u : UploadRun} {names : List Bytes} (hw : WholeRun u names) (b : Bucket)
    (hf : (u.run (uploadHistory us b)).2 = .finished) (ht : ∀ t ∈ ts, t.options.prod = false) {name : Bytes} (hn : name ∈ names) :
    Published (u.disk (outFile name)) u.date name (uploadHistory (us ++ u :: ts) b) := by
  have e : uploadHistory (us ++ u :: ts) b = uploadHistory ts (u.run (uploadHistory us b)).1 := by
    simp [uploadHistory]
  have key : ∀ (ts : List UploadRun) (b : Bucket) (k : Bytes), (∀ t ∈ ts, t.options.prod = false) → ¬ bs%"test/" <+: k →
      uploadHistory ts b k = b k := by
    intro ts
    unfold uploadHistory
    induction ts with
    | nil => exact fun _ _ _ _ => rfl
    | cons t ts ih =>
      intro b k ht hk
      rw [List.foldl_cons, ih _ k (fun v hv => ht v (by simp [hv])) hk, C78_test_only (ht t (by simp)) b hk]
  obtain ⟨c, h1, h2, h3⟩ := (C78_production hw (b' := (u.run (uploadHistory us b)).1) (Prod.ext rfl hf)).1 name hn
  rw [e]
  exact ⟨c, h1, by rw [key ts _ _ ht (by simp [productionKey]), h2], by rw [key ts _ _ ht (by simp [backupKey]), h3]⟩

/-- a run for production of one file, in which all goes well -/
def exUpload (date contents : Bytes) : UploadRun :=
  ⟨⟨none, true⟩, date, some [bs%"a.dat"], fun p => if p = bs%"out/a.dat" then some contents else none, [.ended, .ended]⟩

/-- **C78** fails for the copies if there are two runs within a second: the copy of the first one is lost. -/
theorem C78_same_second_counterexample :
    (∀ b, ((exUpload bs%"2019-01-01T00:00:00" bs%"one").run b).2 = .finished ∧ ((exUpload bs%"2019-01-01T00:00:00" bs%"two").run b).2 = .finished) ∧
    uploadHistory [exUpload bs%"2019-01-01T00:00:00" bs%"one", exUpload bs%"2019-01-01T00:00:00" bs%"two"] (fun _ => none)
      (backupKey bs%"2019-01-01T00:00:00" bs%"a.dat") = some bs%"two" :=
  ⟨fun _ => ⟨rfl, rfl⟩, by decide +kernel⟩

/-- **C78**: the directory is that of the version which the package exports. -/
theorem C78_version : (Nat.toDigits 10 dataFileVersion).map (fun c => UInt8.ofNat c.toNat) ++ bs%"/" = productionKey [] := by decide +kernel

/-! ### With the files that are made of the lists -/

theorem writeOut_file {files : List (Bytes × DataFile)} (hn : (files.map (·.1)).Nodup) {f : Bytes × DataFile} (hf : f ∈ files)
    (disk : Bytes → Option Bytes) : writeOut files disk (outFile f.1) = some f.2.data := by
  have other : ∀ (files : List (Bytes × DataFile)) (disk : Bytes → Option Bytes) (n : Bytes), n ∉ files.map (·.1) →
      writeOut files disk (outFile n) = disk (outFile n) := by
    intro files
    unfold writeOut
    induction files with
    | nil => exact fun _ _ _ => rfl
    | cons g files ih =>
      intro disk n h
      simp only [List.map_cons, List.mem_cons, not_or] at h
      rw [List.foldl_cons, ih _ n h.2]
      exact if_neg fun e => h.1 (List.append_cancel_left (as := bs%"out/") e)
  induction files generalizing disk with
  | nil => cases hf
  | cons g files ih =>
    simp only [List.map_cons, List.nodup_cons] at hn
    rcases List.mem_cons.1 hf with rfl | hf
    · show writeOut files _ (outFile f.1) = _
      rw [other files _ f.1 hn.1]
      exact if_pos rfl
    · exact ih hn.2 hf _

/-- **C78**: if the script that makes the data files has finished, and so has the upload of `out`, then under each name
there is the file made of the lists it is for. -/
theorem C78_lists {E : Env} {fetch : Bytes → Option Bytes} {unbreak : Bytes} {sites : List Bytes} {r : ScriptRun}
    (hr : generateDataFiles E fetch unbreak sites = .ok r) (hfin : r.finished = true) {disk : Bytes → Option Bytes}
    {u : UploadRun} {names : List Bytes} (hw : WholeRun u names) (hdisk : u.disk = writeOut r.files disk) (hnames : ∀ f ∈ r.files, f.1 ∈ names)
    {b b' : Bucket} (h : u.run b = (b', .finished)) :
    ∀ name ∈ dataFileNames, ∃ file, b' (productionKey name) = some file.data ∧ b' (backupKey u.date name) = some file.data ∧
      RightContents E fetch unbreak sites (name, file) := by
  obtain ⟨_, h2, _, h4⟩ := C68_run hr
  intro name hn
  rw [← h4 hfin] at hn
  obtain ⟨⟨n, file⟩, hf, rfl⟩ := List.mem_map.1 hn
  have hnd : (r.files.map (·.1)).Nodup := by rw [h4 hfin]; exact (C68_names_distinct []).1
  obtain ⟨c, e1, e2, e3⟩ := (C78_production hw h).1 n (hnames _ hf)
  rw [hdisk, writeOut_file hnd hf] at e1
  obtain rfl := Option.some.inj e1
  exact ⟨file, e2, e3, h2 _ hf⟩

/-- all goes well -/
example : WholeRun (exUpload bs%"d" bs%"x") [bs%"a.dat"] ∧ ((exUpload bs%"d" bs%"x").run fun _ => none).2 = .finished ∧
    ((exUpload bs%"d" bs%"x").run fun _ => none).1 bs%"4/a.dat" = some bs%"x" ∧
    ((exUpload bs%"d" bs%"x").run fun _ => none).1 bs%"backups/d/a.dat" = some bs%"x" := ⟨⟨rfl, rfl, rfl⟩, by decide +kernel⟩

/-- the second upload fails: there is no copy -/
example : (({ exUpload bs%"d" bs%"x" with events := [.ended, .error false] }).run fun _ => none).2 = .failed ∧
    (({ exUpload bs%"d" bs%"x" with events := [.ended, .error false] }).run fun _ => none).1 bs%"4/a.dat" = some bs%"x" ∧
    (({ exUpload bs%"d" bs%"x" with events := [.ended, .error false] }).run fun _ => none).1 bs%"backups/d/a.dat" = none := by decide +kernel

/-- names of files -/
example : pathBasename bs%"/home/x/out/a.dat" = bs%"a.dat" ∧ pathBasename bs%"a.dat" = bs%"a.dat" ∧ pathBasename bs%"out/a.dat//" = bs%"a.dat" ∧
    NamedBy bs%"out/a.dat" bs%"a.dat" := ⟨by decide, by decide, by decide, by decide, by decide, .inr ⟨bs%"out", rfl⟩⟩

end AdBlock
