import Verif.InitText
import Verif.Props.Cli
import Verif.Props.Cmd

/-!
# A fresh installation (C105)
-/

namespace Tomato.Props

open Tomato.Init

/-! ## Specification -/

/-- Characters that may occur in a literal string of a TOML file: everything but single quotes and
control characters other than tabs. -/
def PlainChar (c : Char) : Prop := c ≠ '\'' ∧ (32 ≤ c.toNat ∨ c = '\t') ∧ c.toNat ≠ 127

/-- A path of such characters. -/
def PlainPath (p : FsPath) : Prop := ∀ c ∈ p, ∀ x ∈ c.toList, PlainChar x

/-! ## Lines -/

theorem lines_append (l r : List Char) (h : '\n' ∉ l) : lines (l ++ '\n' :: r) = l :: lines r := by
  induction l with
  | nil => simp [lines]
  | cons c l ih =>
    simp only [List.mem_cons, not_or] at h
    simp only [List.cons_append, lines, if_neg (Ne.symm h.1), ih h.2]

theorem lines_unlines (ls : List (List Char)) (h : ∀ l ∈ ls, '\n' ∉ l) :
    lines (unlines ls) = ls ++ [[]] := by
  induction ls with
  | nil => rfl
  | cons l ls ih =>
    have : unlines (l :: ls) = l ++ '\n' :: unlines ls := by simp [unlines]
    rw [this, lines_append _ _ (h l (by simp)), ih (fun x hx => h x (by simp [hx]))]
    rfl

/-! ## Entries -/

theorem literal_plain (v : List Char) (hv : ∀ x ∈ v, PlainChar x) :
    literal (v ++ ['\'']) = some (v, []) := by
  induction v with
  | nil => rfl
  | cons c v ih =>
    obtain ⟨h1, h2, h3⟩ := hv c (by simp)
    have hc : ¬ ((c.toNat < 32 ∧ c ≠ '\t') ∨ c.toNat = 127) := by
      rintro (⟨h, h'⟩ | h)
      · rcases h2 with h2 | h2
        · omega
        · exact h' h2
      · exact h3 h
    simp only [List.cons_append, literal, if_neg h1, if_neg hc, ih (fun x hx => hv x (by simp [hx])),
      Option.map_some]

theorem cut_key (k r : List Char) (hk : ∀ c ∈ k, isBare c = true) :
    cut '=' (k ++ ' ' :: '=' :: r) = some (k ++ [' '], r) := by
  induction k with
  | nil => simp [cut]
  | cons c k ih =>
    have hc : c ≠ '=' := by
      rintro rfl
      exact absurd (hk '=' (by simp)) (by decide)
    simp only [List.cons_append, cut, if_neg hc, ih (fun x hx => hk x (by simp [hx])), Option.map_some]

theorem segments_key (k : List Char) (hk : ∀ c ∈ k, isBare c = true) :
    segments (k ++ [' ']) = [k ++ [' ']] := by
  induction k with
  | nil => simp [segments]
  | cons c k ih =>
    have hc : c ≠ '.' := by
      rintro rfl
      exact absurd (hk '.' (by simp)) (by decide)
    simp only [List.cons_append, segments, if_neg hc, ih (fun x hx => hk x (by simp [hx]))]

theorem bare_not_blank {c : Char} (h : isBare c = true) : isBlank c = false := by
  cases hb : isBlank c with
  | false => rfl
  | true =>
    simp only [isBlank, Bool.or_eq_true, decide_eq_true_eq] at hb
    rcases hb with rfl | rfl
    · exact absurd h (by decide)
    · exact absurd h (by decide)

theorem dropWhile_bare (c : Char) (k : List Char) (hc : isBare c = true) :
    (c :: k).dropWhile isBlank = c :: k := by
  rw [List.dropWhile_cons, bare_not_blank hc]; rfl

theorem keyOf_key (k : List Char) (hk : ∀ c ∈ k, isBare c = true) (hn : k ≠ []) :
    keyOf (k ++ [' ']) = some [k] := by
  have h1 : ((k ++ [' ']).dropWhile isBlank).reverse.dropWhile isBlank = k.reverse := by
    cases k with
    | nil => exact absurd rfl hn
    | cons c k =>
      rw [List.cons_append, dropWhile_bare _ _ (hk c (by simp)), List.reverse_cons, List.reverse_append]
      simp only [List.reverse_cons, List.reverse_nil, List.nil_append, List.cons_append]
      rw [List.dropWhile_cons, if_pos (by decide)]
      cases hr : k.reverse with
      | nil =>
        simp only [List.nil_append]
        exact dropWhile_bare _ _ (hk c (by simp))
      | cons x r =>
        have hx : x ∈ k := by rw [← List.mem_reverse, hr]; simp
        exact dropWhile_bare _ _ (hk x (by simp [hx]))
  simp only [keyOf, segments_key k hk, List.map_cons, List.map_nil, h1, List.reverse_reverse]
  rw [if_pos]
  simp only [List.all_cons, List.all_nil, Bool.and_true, Bool.and_eq_true, decide_eq_true_eq,
    List.all_eq_true]
  exact ⟨hn, hk⟩

theorem valueOf_plain (v : List Char) (hv : ∀ x ∈ v, PlainChar x) :
    valueOf (' ' :: '\'' :: (v ++ ['\''])) = some (.str v) := by
  have : (' ' :: '\'' :: (v ++ ['\''])).dropWhile isBlank = '\'' :: (v ++ ['\'']) := rfl
  simp only [valueOf, this, if_true, literal_plain v hv]
  rfl

/-- An entry is read as it was written. -/
theorem readLine_entry (t : List (List Char)) (d : Doc) (key : String) (v : List Char)
    (hk : ∀ c ∈ key.toList, isBare c = true) (hn : key.toList ≠ []) (hv : ∀ x ∈ v, PlainChar x)
    (hf : (t ++ [key.toList]) ∉ d.vals.map (·.1)) :
    readLine t d (entry key v) =
      some (t, { d with vals := d.vals ++ [(t ++ [key.toList], .str v)] }) := by
  have h0 : entry key v = key.toList ++ ' ' :: '=' :: ' ' :: '\'' :: (v ++ ['\'']) := by
    simp only [entry, List.append_assoc]; rfl
  rw [h0]
  have h1 := cut_key key.toList (' ' :: '\'' :: (v ++ ['\''])) hk
  have h2 := keyOf_key key.toList hk hn
  revert hk hn hf h1 h2
  generalize key.toList = k
  intro hk hn hf h1 h2
  cases k with
  | nil => exact absurd rfl hn
  | cons c k =>
    have hc := hk c (by simp)
    have c1 : c ≠ '#' := by rintro rfl; exact absurd hc (by decide)
    have c2 : c ≠ '[' := by rintro rfl; exact absurd hc (by decide)
    simp only [readLine, List.cons_append]
    rw [dropWhile_bare _ _ hc]
    simp only [if_neg c1, if_neg c2]
    simp only [List.cons_append] at h1 h2
    rw [h1]
    simp only
    rw [h2, valueOf_plain v hv]
    simp only
    rw [if_pos hf]

/-! ## The document -/

theorem plain_pathText {p : FsPath} (h : PlainPath p) : ∀ x ∈ pathText p, PlainChar x := by
  intro x hx
  simp only [pathText, List.mem_flatMap, List.mem_cons] at hx
  obtain ⟨c, hc, rfl | hx⟩ := hx
  · exact ⟨by decide, by decide, by decide⟩
  · exact h c hc x hx

theorem plain_append {p q : FsPath} (h : PlainPath p) (h' : PlainPath q) : PlainPath (p ++ q) := by
  intro c hc
  rcases List.mem_append.mp hc with hc | hc
  · exact h c hc
  · exact h' c hc

theorem plain_lit (s : String) (h : ∀ x ∈ s.toList, x ≠ '\'' ∧ 32 ≤ x.toNat ∧ x.toNat ≠ 127) :
    PlainPath [s] := by
  intro c hc
  simp only [List.mem_singleton] at hc
  subst hc
  intro x hx
  exact ⟨(h x hx).1, .inl (h x hx).2.1, (h x hx).2.2⟩

theorem plain_no_newline {v : List Char} (h : ∀ x ∈ v, PlainChar x) : '\n' ∉ v := by
  intro hn
  exact absurd (h _ hn).2.1 (by decide)

theorem entry_no_newline (k : String) {v : List Char} (hk : '\n' ∉ k.toList) (h : ∀ x ∈ v, PlainChar x) :
    '\n' ∉ entry k v := by
  have := plain_no_newline h
  simp only [entry, List.mem_append, not_or]
  exact ⟨⟨⟨hk, by decide⟩, this⟩, by decide⟩

/-- What is read. -/
def initDoc (appdir datadir logdir : FsPath) : Doc where
  tables := [["jobs".toList], ["devices".toList], ["repositories".toList], ["drivers".toList]]
  vals :=
    [ (["datadir".toList], .str (pathText datadir)),
      (["logdir".toList], .str (pathText logdir)),
      (["jobs".toList, "storage".toList], .str (pathText (datadir ++ ["Jobs"]))),
      (["jobs".toList, "dbpath".toList], .str (pathText (datadir ++ ["Jobs"] ++ ["dbpath.sqlite"]))),
      (["devices".toList, "config".toList], .str (pathText (appdir ++ ["devices.yml"]))),
      (["drivers".toList, "example_counter".toList, "idle_measurement_interval".toList], .num ['1']),
      (["drivers".toList, "example_counter".toList, "lpp_timeout".toList], .num ['2']) ]

theorem load_init (version date : List Char) (appdir datadir logdir : FsPath)
    (hv : '\n' ∉ version) (hd : '\n' ∉ date)
    (ha : PlainPath appdir) (hda : PlainPath datadir) (hl : PlainPath logdir) :
    load (settingsText version date appdir datadir logdir) = some (initDoc appdir datadir logdir) := by
  have p1 := plain_pathText hda
  have p2 := plain_pathText hl
  have p3' : PlainPath (datadir ++ ["Jobs"]) := plain_append hda (plain_lit _ (by decide))
  have p3 := plain_pathText p3'
  have p4 := plain_pathText (plain_append p3' (plain_lit "dbpath.sqlite" (by decide)))
  have p5 := plain_pathText (plain_append ha (plain_lit "devices.yml" (by decide)))
  have hlines : ∀ l ∈ settingsLines version date appdir datadir logdir, '\n' ∉ l := by
    have e1 := entry_no_newline "datadir" (by decide) p1
    have e2 := entry_no_newline "logdir" (by decide) p2
    have e3 := entry_no_newline "storage" (by decide) p3
    have e4 := entry_no_newline "dbpath" (by decide) p4
    have e5 := entry_no_newline "config" (by decide) p5
    have e6 : '\n' ∉ "# Default settings for tomato-".toList ++ version := by
      simp only [List.mem_append, not_or]; exact ⟨by decide, hv⟩
    have e7 : '\n' ∉ "# Generated on ".toList ++ date := by
      simp only [List.mem_append, not_or]; exact ⟨by decide, hd⟩
    simp only [settingsLines, List.forall_mem_cons]
    exact ⟨e6, e7, e1, e2, by decide, by decide, e3, e4, by decide, by decide, e5, by decide, by decide,
      by decide, by decide, by decide, by decide, by decide, by decide, by simp⟩
  have step : ∀ {t d l t' d'} (ls : List (List Char)), readLine t d l = some (t', d') →
      readLines t d (l :: ls) = readLines t' d' ls := by
    intro t d l t' d' ls h
    simp only [readLines, h]
  rw [load, settingsText, lines_unlines _ hlines]
  simp only [settingsLines, List.cons_append, List.nil_append, initDoc]
  generalize pathText datadir = q1 at *
  generalize pathText logdir = q2 at *
  generalize pathText (datadir ++ ["Jobs"]) = q3 at *
  generalize pathText (datadir ++ ["Jobs"] ++ ["dbpath.sqlite"]) = q4 at *
  generalize pathText (appdir ++ ["devices.yml"]) = q5 at *
  let T : List (List (List Char)) :=
    [["jobs".toList], ["devices".toList], ["repositories".toList], ["drivers".toList]]
  let V : List (List (List Char) × Val) :=
    [ (["datadir".toList], .str q1), (["logdir".toList], .str q2),
      (["jobs".toList, "storage".toList], .str q3), (["jobs".toList, "dbpath".toList], .str q4),
      (["devices".toList, "config".toList], .str q5),
      (["drivers".toList, "example_counter".toList, "idle_measurement_interval".toList], .num ['1']),
      (["drivers".toList, "example_counter".toList, "lpp_timeout".toList], .num ['2']) ]
  let D (i j : Nat) : Doc := { tables := T.take i, vals := V.take j }
  have kb : ∀ k ∈ ["datadir", "logdir", "storage", "dbpath", "config"],
      (∀ c ∈ k.toList, isBare c = true) ∧ k.toList ≠ [] := by decide
  have r1 : readLine [] (D 0 0) (entry "datadir" q1) = some ([], D 0 1) :=
    readLine_entry _ _ _ _ (kb _ (by simp)).1 (kb _ (by simp)).2 p1
      (by decide : [] ++ ["datadir".toList] ∉ ([] : List (List (List Char))))
  have r2 : readLine [] (D 0 1) (entry "logdir" q2) = some ([], D 0 2) :=
    readLine_entry _ _ _ _ (kb _ (by simp)).1 (kb _ (by simp)).2 p2
      (by decide : [] ++ ["logdir".toList] ∉ [["datadir".toList]])
  have r3 : readLine [] (D 0 2) "[jobs]".toList = some (["jobs".toList], D 1 2) := by rfl
  have r4 : readLine ["jobs".toList] (D 1 2) (entry "storage" q3) = some (["jobs".toList], D 1 3) :=
    readLine_entry _ _ _ _ (kb _ (by simp)).1 (kb _ (by simp)).2 p3
      (by decide : ["jobs".toList] ++ ["storage".toList] ∉ [["datadir".toList], ["logdir".toList]])
  have r5 : readLine ["jobs".toList] (D 1 3) (entry "dbpath" q4) = some (["jobs".toList], D 1 4) :=
    readLine_entry _ _ _ _ (kb _ (by simp)).1 (kb _ (by simp)).2 p4
      (by decide : ["jobs".toList] ++ ["dbpath".toList] ∉
        [["datadir".toList], ["logdir".toList], ["jobs".toList, "storage".toList]])
  have r6 : readLine ["jobs".toList] (D 1 4) "[devices]".toList = some (["devices".toList], D 2 4) := by rfl
  have r7 : readLine ["devices".toList] (D 2 4) (entry "config" q5) = some (["devices".toList], D 2 5) :=
    readLine_entry _ _ _ _ (kb _ (by simp)).1 (kb _ (by simp)).2 p5
      (by decide : ["devices".toList] ++ ["config".toList] ∉
        [["datadir".toList], ["logdir".toList], ["jobs".toList, "storage".toList],
         ["jobs".toList, "dbpath".toList]])
  have r8 : readLine ["devices".toList] (D 2 5) "[repositories]".toList =
      some (["repositories".toList], D 3 5) := by rfl
  have r9 : readLine ["repositories".toList] (D 3 5) "[drivers]".toList =
      some (["drivers".toList], D 4 5) := by rfl
  have r10 : readLine ["drivers".toList] (D 4 5) "example_counter.idle_measurement_interval = 1".toList =
      some (["drivers".toList], D 4 6) := by rfl
  have r11 : readLine ["drivers".toList] (D 4 6) "example_counter.lpp_timeout = 2".toList =
      some (["drivers".toList], D 4 7) := by rfl
  have e0 : ∀ t d, readLine t d [] = some (t, d) := fun _ _ => rfl
  have c1 : ∀ t d, readLine t d ("# Default settings for tomato-".toList ++ version) = some (t, d) :=
    fun _ _ => rfl
  have c2 : ∀ t d, readLine t d ("# Generated on ".toList ++ date) = some (t, d) := fun _ _ => rfl
  have c3 : ∀ t d, readLine t d "# default.endpoint = 'https://example.endpoint/'".toList = some (t, d) :=
    fun _ _ => rfl
  have c4 : ∀ t d, readLine t d "# default.api_key = 'abcd23abcd23'".toList = some (t, d) :=
    fun _ _ => rfl
  rw [step _ (c1 _ _), step _ (c2 _ _), show ({} : Doc) = D 0 0 from rfl, step _ r1, step _ r2,
    step _ (e0 _ _), step _ r3, step _ r4, step _ r5, step _ (e0 _ _), step _ r6, step _ r7,
    step _ (e0 _ _), step _ r8, step _ (c3 _ _), step _ (c4 _ _), step _ (e0 _ _), step _ r9, step _ r10,
    step _ r11, step _ (e0 _ _)]
  rfl

/-! ## C105 -/

/-- **C105** (`_partial`: for paths without single quotes and control characters, see `C105_refuted`):
after `tomato init` with any folders in which there were no settings yet, whatever the version and the
time, the settings are read back as they were meant: data in the data folder, with the database
below it, logs in the log folder, the devices file next to the settings, a section for repositories, and
the settings of the example driver; and the folders exist. -/
theorem C105_partial (version date : List Char) (appdir datadir logdir : FsPath) (devices : String)
    (fs fs' : Fs) (hv : '\n' ∉ version) (hd : '\n' ∉ date)
    (ha : PlainPath appdir) (hda : PlainPath datadir) (hl : PlainPath logdir)
    (hna : appdir ≠ []) (hnl : logdir ≠ [])
    (hnew : fs (appdir ++ ["settings.toml"]) = none)
    (h : initCmd appdir logdir (datadir ++ ["Jobs"])
      (String.ofList (settingsText version date appdir datadir logdir)) devices fs = (.ok (), fs')) :
    ∃ text doc, fs' (appdir ++ ["settings.toml"]) = some (.text text) ∧ load text.toList = some doc ∧
      doc.get ["datadir"] = some (.str (pathText datadir)) ∧
      doc.get ["logdir"] = some (.str (pathText logdir)) ∧
      doc.get ["jobs", "storage"] = some (.str (pathText (datadir ++ ["Jobs"]))) ∧
      doc.get ["jobs", "dbpath"] = some (.str (pathText (datadir ++ ["Jobs", "dbpath.sqlite"]))) ∧
      doc.get ["devices", "config"] = some (.str (pathText (appdir ++ ["devices.yml"]))) ∧
      doc.settings = some
        { storage := String.ofList (pathText (datadir ++ ["Jobs"])), repositories := some [],
          drivers := [("example_counter", [("idle_measurement_interval", "1"), ("lpp_timeout", "2")])] } ∧
      (fs' logdir).isSome ∧ (fs' (datadir ++ ["Jobs"])).isSome := by
  obtain ⟨h1, _, _, h4, h5, _⟩ := C64_init_creates appdir logdir (datadir ++ ["Jobs"]) hna hnl (by simp)
    _ devices fs fs' h
  refine ⟨_, _, h1 hnew, by rw [String.toList_ofList]; exact load_init version date appdir datadir logdir hv hd ha hda hl,
    rfl, rfl, rfl, ?_, rfl, ?_, h4, h5⟩
  · have e : datadir ++ ["Jobs", "dbpath.sqlite"] = datadir ++ ["Jobs"] ++ ["dbpath.sqlite"] := by simp
    rw [e]
    rfl
  · have e : (initDoc appdir datadir logdir).get ["jobs", "storage"] =
        some (.str (pathText (datadir ++ ["Jobs"]))) := rfl
    simp only [Doc.settings, e]
    congr 1

/-- **C105**: the daemon started with the files written by `tomato init` (the settings of
`C105_partial`, any folder), on an empty database, offers one empty pipeline with the example counter,
whose driver gets the settings from the file. -/
theorem C105_daemon (storage : String) (w : World) (hp : w.pips = []) (hdr : w.drvs = []) :
    ∃ df rep d', populateAttrs defaultDevices = .ok df ∧
      runW (cmdReload (Daemon.build .bootstrap
        { storage := storage, repositories := some [],
          drivers := [("example_counter", [("idle_measurement_interval", "1"), ("lpp_timeout", "2")])] } df) none) w =
        (.ok (rep, d'), { w with pips := [{ name := "pip-counter" }], drvs := [{ name := "example_counter" }] }) ∧
      rep.success = true ∧ d'.status = .running ∧ d'.settings.storage = storage ∧
      (Dict.get? d'.devicefile.pipelines "pip-counter").map (·.components) =
        some [("counter", "example_counter:(example-addr,1)")] ∧
      (Dict.get? d'.devicefile.components "example_counter:(example-addr,1)").map
        (fun c => (c.driver, c.address, c.channel)) = some ("example_counter", "example-addr", "1") ∧
      (Dict.get? d'.devicefile.drivers "example_counter").map (·.settings) =
        some [("idle_measurement_interval", "1"), ("lpp_timeout", "2")] := by
  obtain ⟨jobs, pips, drvs⟩ := w
  simp only at hp hdr
  subst hp; subst hdr
  exact ⟨_, _, _, rfl, rfl, rfl, rfl, rfl, rfl, rfl, rfl⟩

/-- What the reader refuses: text after a table or a value, a table or a key given twice, a quote in a
literal, an entry without a value. -/
example : load "[jobs] x\n".toList = none ∧ load "[jobs]\n[jobs]\n".toList = none ∧
    load "a = 1\na = 2\n".toList = none ∧ load "a = '1' 2\n".toList = none ∧ load "a = 'o'brien'\n".toList = none ∧
    load "a =\n".toList = none ∧ load "a\n".toList = none ∧ load "[]\n".toList = none ∧
    (load "[jobs] # x\n".toList).isSome := by decide +kernel

/-- Folders of a user. -/
example : PlainPath ["home", "käthe", "my data"] ∧ ¬ PlainPath ["home", "o'brien"] := by
  unfold PlainPath PlainChar
  constructor
  · decide
  · decide

/-- **C105 is false of the code**: in a folder with a single quote in its name, `tomato init` succeeds but
writes a file that can not be read. -/
theorem C105_refuted : ∃ (appdir datadir logdir : FsPath) (fs fs' : Fs) (text : String),
    initCmd appdir logdir (datadir ++ ["Jobs"])
      (String.ofList (settingsText "2.1".toList "2025-01-01".toList appdir datadir logdir)) "" fs = (.ok (), fs') ∧
    fs' (appdir ++ ["settings.toml"]) = some (.text text) ∧ load text.toList = none := by
  refine ⟨["etc"], ["home", "o'brien"], ["log"], fun _ => none, _, _, rfl, rfl, ?_⟩
  rw [String.toList_ofList]
  decide +kernel

/-- **C105** fails silently, too: if the name of the folder goes on like a comment, the settings are read
without an error, but name another folder, for the data as well as for the jobs and their
database. -/
theorem C105_refuted_silent : ∃ (appdir datadir logdir : FsPath) (fs fs' : Fs) (text : String) (doc : Doc),
    initCmd appdir logdir (datadir ++ ["Jobs"])
      (String.ofList (settingsText "2.1".toList "2025-01-01".toList appdir datadir logdir)) "" fs = (.ok (), fs') ∧
    fs' (appdir ++ ["settings.toml"]) = some (.text text) ∧ load text.toList = some doc ∧
    doc.get ["datadir"] = some (.str "/home/a".toList) ∧ pathText datadir = "/home/a' #b".toList ∧
    doc.get ["jobs", "dbpath"] = some (.str "/home/a".toList) ∧
    doc.get ["jobs", "storage"] = some (.str "/home/a".toList) := by
  have h : ∃ doc, load (settingsText "2.1".toList "2025-01-01".toList ["etc"] ["home", "a' #b"] ["log"]) =
      some doc ∧ doc.get ["datadir"] = some (.str "/home/a".toList) ∧
      doc.get ["jobs", "dbpath"] = some (.str "/home/a".toList) ∧
      doc.get ["jobs", "storage"] = some (.str "/home/a".toList) := by
    have h : (load (settingsText "2.1".toList "2025-01-01".toList ["etc"] ["home", "a' #b"] ["log"])).map
        (fun doc => (doc.get ["datadir"], doc.get ["jobs", "dbpath"], doc.get ["jobs", "storage"])) =
        some (some (.str "/home/a".toList), some (.str "/home/a".toList), some (.str "/home/a".toList)) := by
      decide +kernel
    obtain ⟨doc, h1, h2⟩ := Option.map_eq_some_iff.mp h
    simp only [Prod.mk.injEq] at h2
    exact ⟨doc, h1, h2⟩
  obtain ⟨doc, h1, h2, h3, h4⟩ := h
  refine ⟨["etc"], ["home", "a' #b"], ["log"], fun _ => none, _, _, doc, rfl, rfl, ?_, h2, by decide, h3, h4⟩
  rw [String.toList_ofList]
  exact h1

end Tomato.Props
