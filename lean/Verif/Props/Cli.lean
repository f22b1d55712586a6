import Verif.Cli

/-!
# Properties of the command line and of the database set-up (C31, C64, C65, C66, C69)
-/

namespace Tomato.Props

/-! ## C66 -/

/-- **C66**: every combination of flags yields one of the five log levels; more `-q` never
lowers and more `-v` never raises it; without flags it is 20. -/
theorem C66_log_level (q v : Nat) :
    (verbosity q v ∈ [10, 20, 30, 40, 50]) ∧
    (∀ q', q ≤ q' → verbosity q v ≤ verbosity q' v) ∧
    (∀ v', v ≤ v' → verbosity q v' ≤ verbosity q v) ∧
    verbosity 0 0 = 20 := by
  refine ⟨?_, ?_, ?_, by decide⟩
  · simp only [List.mem_cons, List.not_mem_nil, or_false, verbosity]
    omega
  · intro q' h
    simp only [verbosity]
    omega
  · intro v' h
    simp only [verbosity]
    omega

example : verbosity 1 0 = 30 ∧ verbosity 0 1 = 10 ∧ verbosity 0 7 = 10 ∧ verbosity 9 1 = 50 := by
  decide

/-! ## C65 -/

theorem foldl_max_le (xs : List Nat) (x : Nat) : x ≤ xs.foldl max x ∧ ∀ y ∈ xs, y ≤ xs.foldl max x := by
  induction xs generalizing x with
  | nil => simp
  | cons z xs ih =>
    obtain ⟨h1, h2⟩ := ih (max x z)
    simp only [List.foldl_cons, List.mem_cons, forall_eq_or_imp]
    exact ⟨by omega, by omega, h2⟩

theorem pyMax_le {xs : List Nat} {m : Nat} (h : pyMax xs = .ok m) : ∀ y ∈ xs, y ≤ m := by
  cases xs with
  | nil => cases h
  | cons x xs =>
    cases h
    intro y hy
    rcases List.mem_cons.mp hy with rfl | hy
    · exact (foldl_max_le xs y).1
    · exact (foldl_max_le xs x).2 y hy

theorem maxLens_ok {O : Type} (val : O → String → String) (data : List O) (hd : data ≠ [])
    (keys : List String) : ∃ ms, maxLens val data keys = .ok ms ∧ ms.map (·.1) = keys ∧
      ∀ km ∈ ms, ∀ o ∈ data, (val o km.1).toList.length ≤ km.2 := by
  induction keys with
  | nil => exact ⟨[], rfl, rfl, by simp⟩
  | cons k rest ih =>
    obtain ⟨ms, h1, h2, h3⟩ := ih
    cases data with
    | nil => exact absurd rfl hd
    | cons o data =>
      have hm : ∃ m, pyMax ((o :: data).map (fun o => (val o k).toList.length)) = .ok m := ⟨_, rfl⟩
      obtain ⟨m, hm⟩ := hm
      refine ⟨(k, m) :: ms, ?_, by simp [h2], ?_⟩
      · simp only [maxLens, hm, h1]
      · intro km hkm
        rcases List.mem_cons.mp hkm with rfl | hkm
        · intro o' ho'
          exact pyMax_le hm _ (List.mem_map.mpr ⟨o', ho', rfl⟩)
        · exact h3 km hkm

theorem padRight_length {v : List Char} {w : Nat} (h : v.length ≤ w) : (padRight v w).length = w := by
  simp only [padRight, List.length_append, List.length_replicate]
  omega

/-- The width of the columns before. -/
def widths (ms : List (String × Nat)) : Nat :=
  (ms.map (fun km => km.1.toList.length + 1 + (km.2 + 2))).sum

theorem padLine_append {O : Type} (val : O → String → String) (o : O) (a b : List (String × Nat)) :
    padLine val o (a ++ b) = padLine val o a ++ padLine val o b := by
  induction a with
  | nil => rfl
  | cons km a ih =>
    obtain ⟨k, m⟩ := km
    simp only [List.cons_append, padLine, ih, List.append_assoc]

theorem padLine_length {O : Type} (val : O → String → String) (o : O) (ms : List (String × Nat))
    (h : ∀ km ∈ ms, (val o km.1).toList.length ≤ km.2) :
    (padLine val o ms).length = widths ms := by
  induction ms with
  | nil => rfl
  | cons km ms ih =>
    obtain ⟨k, m⟩ := km
    have hk := h (k, m) List.mem_cons_self
    simp only [padLine, widths, List.length_append, List.length_cons, List.map_cons,
      List.sum_cons] at *
    rw [ih (fun km hkm => h km (List.mem_cons_of_mem _ hkm)), padRight_length (by omega)]
    omega

/-- **C65** (partial): for a non-empty set of objects the table is printed, with one line per
object; the `i`-th column starts at the same position in every line, shows its name and the
object's value there, and is separated from the next by at least two spaces; all lines
have the same length.  Missing: the empty set of objects, for which the code fails
(`C65_refuted`). -/
theorem C65_tables_partial {O : Type} (val : O → String → String) (data : List O)
    (keys : List String) (hd : data ≠ []) :
    ∃ lines, makePaddedLines val data keys = .ok lines ∧ lines.length = data.length ∧
      (∀ i (hi : i < keys.length), ∃ pos, ∀ n (hn : n < data.length) (hl : n < lines.length),
        ∃ pre suf, lines[n] = pre ++ (keys[i].toList ++ ':' :: (val data[n] keys[i]).toList ++
          [' ', ' ']) ++ suf ∧ pre.length = pos) ∧
      (∃ len, ∀ l ∈ lines, l.length = len) ∧
      (∀ msg objs, formatMsg val msg objs false keys data =
        .ok ((msg ++ " with the following " ++ objs ++ ":\n\t").toList ++
          ("\n\t".toList).intercalate lines)) := by
  obtain ⟨ms, h1, h2, h3⟩ := maxLens_ok val data hd keys
  have hlen : 0 < data.length := List.length_pos_iff.mpr hd
  refine ⟨data.map (fun o => padLine val o ms), by simp only [makePaddedLines, h1], by simp, ?_,
    ⟨widths ms, ?_⟩, ?_⟩
  · intro i hi
    have hi' : i < ms.length := by rw [← List.length_map (·.1), h2]; exact hi
    refine ⟨widths (ms.take i), ?_⟩
    intro n hn hl
    have hsplit : ms = ms.take i ++ ms[i] :: ms.drop (i + 1) := by simp
    have hkey : ms[i].1 = keys[i] := by
      have : (ms.map (·.1))[i]'(by simpa using hi') = keys[i] := by simp only [h2]
      simpa using this
    have hval := h3 ms[i] (List.getElem_mem hi') data[n] (List.getElem_mem hn)
    refine ⟨padLine val data[n] (ms.take i),
      List.replicate (ms[i].2 - (val data[n] keys[i]).toList.length) ' ' ++
        padLine val data[n] (ms.drop (i + 1)), ?_, ?_⟩
    · rw [List.getElem_map]
      have hl : padLine val data[n] ms =
          padLine val data[n] (ms.take i ++ ms[i] :: ms.drop (i + 1)) := by rw [← hsplit]
      rw [hl, padLine_append]
      rw [hkey] at hval
      simp only [padLine, hkey, padRight]
      rw [show ms[i].2 + 2 - (val data[n] keys[i]).toList.length =
        2 + (ms[i].2 - (val data[n] keys[i]).toList.length) by omega, ← List.replicate_append_replicate]
      simp [List.replicate]
    · exact padLine_length _ _ _ (fun km hkm => h3 km (List.mem_of_mem_take hkm) _
        (List.getElem_mem hn))
  · intro l hl
    obtain ⟨o, ho, rfl⟩ := List.mem_map.mp hl
    exact padLine_length _ _ _ (fun km hkm => h3 km hkm o ho)
  · intro msg objs
    simp only [formatMsg, makePaddedLines, h1, List.length_map]
    rw [if_neg (by simp), if_neg (by omega)]

example : makePaddedLines (fun (o : String × String) k => if k = "name" then o.1 else o.2)
    [("a", "xyz"), ("long", "u")] ["name", "ready"] =
    .ok ["name:a     ready:xyz  ".toList, "name:long  ready:u    ".toList] := by rfl

/-- **C65 is false of the code** for an empty set of objects: instead of the message the
command fails with a `ValueError`, for every message and every non-empty list of columns. -/
theorem C65_refuted {O : Type} (val : O → String → String) (msg objs : String) (key : String)
    (keys : List String) :
    formatMsg val msg objs false (key :: keys) ([] : List O) = .error .valueError := rfl

/-! ## C64 -/

/-- Everything that existed is as before. -/
def Keeps (fs fs' : Fs) : Prop := ∀ p n, fs p = some n → fs' p = some n

theorem keeps_put {fs : Fs} {p : FsPath} {n : FsNode} (h : fs p = none) : Keeps fs (fs.put p n) := by
  intro q m hq
  simp only [Fs.put]
  split
  · next e => subst e; rw [h] at hq; cases hq
  · exact hq

theorem Keeps.refl (fs : Fs) : Keeps fs fs := fun _ _ h => h
theorem Keeps.trans {a b c : Fs} (h1 : Keeps a b) (h2 : Keeps b c) : Keeps a c :=
  fun p n h => h2 p n (h1 p n h)

theorem no_new {fs : Fs} {q : FsPath} {m : FsNode} {P : Prop} (h : fs q = some m)
    (h' : fs q = none) : P := by
  rw [h'] at h; cases h

theorem makedirsFrom_spec (rest : FsPath) (fs : Fs) (done : FsPath) :
    Keeps fs (makedirsFrom fs done rest).2 ∧
    ((makedirsFrom fs done rest).1 = .ok () → rest ≠ [] →
      (makedirsFrom fs done rest).2 (done ++ rest) = some .dir) ∧
    (∀ p n, (makedirsFrom fs done rest).2 p = some n → fs p = none →
      n = .dir ∧ p <+: done ++ rest) ∧
    ((∀ q, q <+: done ++ rest → fs q = none ∨ fs q = some .dir) →
      (makedirsFrom fs done rest).1 = .ok ()) := by
  induction rest generalizing fs done with
  | nil => exact ⟨Keeps.refl _, fun _ h => absurd rfl h, fun _ _ h h' => no_new h h', fun _ => rfl⟩
  | cons c rest ih =>
    have hassoc : done ++ c :: rest = (done ++ [c]) ++ rest := by simp
    simp only [makedirsFrom]
    split
    · next hn =>
      obtain ⟨h1, h2, h3, h4⟩ := ih (fs.put (done ++ [c]) .dir) (done ++ [c])
      refine ⟨(keeps_put hn).trans h1, ?_, ?_, ?_⟩
      · intro hok _
        by_cases hr : rest = []
        · subst hr
          simp [makedirsFrom, Fs.put]
        · rw [hassoc]; exact h2 hok hr
      · intro p n hp hf
        rw [hassoc]
        by_cases e : p = done ++ [c]
        · have := h1 p .dir (by simp [Fs.put, e])
          rw [hp] at this
          exact ⟨Option.some.inj this, e ▸ List.prefix_append _ _⟩
        · exact h3 p n hp (by simp [Fs.put, e, hf])
      · intro hq
        apply h4
        intro q hqp
        simp only [Fs.put]
        split
        · exact Or.inr rfl
        · exact hq q (hassoc ▸ hqp)
    · next hn =>
      obtain ⟨h1, h2, h3, h4⟩ := ih fs (done ++ [c])
      refine ⟨h1, ?_, hassoc ▸ h3, fun hq => h4 (hassoc ▸ hq)⟩
      intro hok _
      by_cases hr : rest = []
      · subst hr
        simpa [makedirsFrom] using hn
      · rw [hassoc]; exact h2 hok hr
    · next x hx hn =>
      refine ⟨Keeps.refl _, (by rintro ⟨⟩), fun _ _ h h' => no_new h h', ?_⟩
      intro hq
      rcases hq (done ++ [c]) (hassoc ▸ List.prefix_append _ _) with e | e
      · rw [e] at hn; cases hn
      · rw [e] at hn; cases hn; exact absurd rfl hx

theorem ensureDir_spec (fs : Fs) (p : FsPath) (hp : p ≠ []) :
    Keeps fs (ensureDir fs p).2 ∧
    ((ensureDir fs p).1 = .ok () → ((ensureDir fs p).2 p).isSome = true) ∧
    (∀ q n, (ensureDir fs p).2 q = some n → fs q = none → n = .dir ∧ q <+: p) ∧
    ((∀ q, q <+: p → fs q = none ∨ fs q = some .dir) →
      (ensureDir fs p).1 = .ok () ∧ (ensureDir fs p).2 p = some .dir) := by
  unfold ensureDir makedirs
  split
  · obtain ⟨h1, h2, h3, h4⟩ := makedirsFrom_spec p fs []
    simp only [List.nil_append] at h2 h3 h4
    refine ⟨h1, fun h => ?_, h3, fun hq => ⟨h4 hq, h2 (h4 hq) hp⟩⟩
    rw [h2 h hp]
    rfl
  · next n hn =>
    refine ⟨Keeps.refl _, fun _ => by simp [hn], fun _ _ h h' => no_new h h', fun hq => ⟨rfl, ?_⟩⟩
    rcases hq p (List.prefix_refl _) with e | e
    · rw [e] at hn; cases hn
    · exact e

theorem ensureFile_spec (fs : Fs) (dir : FsPath) (name : String) (n : FsNode) :
    Keeps fs (ensureFile fs dir name n).2 ∧
    ((ensureFile fs dir name n).1 = .ok () →
      ((ensureFile fs dir name n).2 (dir ++ [name])).isSome = true) ∧
    (∀ q m, (ensureFile fs dir name n).2 q = some m → fs q = none → q = dir ++ [name] ∧ m = n) ∧
    (fs dir = some .dir → (ensureFile fs dir name n).1 = .ok ()) := by
  unfold ensureFile
  split
  · next x hx =>
    exact ⟨Keeps.refl _, fun _ => by simp [hx], fun _ _ h h' => no_new h h', fun _ => rfl⟩
  · next hx =>
    split
    · refine ⟨keeps_put hx, fun _ => by simp [Fs.put], ?_, fun _ => rfl⟩
      intro q m h h'
      simp only [Fs.put] at h
      split at h
      · next e => cases h; exact ⟨e, rfl⟩
      · rw [h'] at h; cases h
    · next hd =>
      exact ⟨Keeps.refl _, (by rintro ⟨⟩), fun _ _ h h' => no_new h h', fun h => absurd h hd⟩

theorem fsSeq_ok {a b : Fs → Except PyErr Unit × Fs} {fs fs' : Fs}
    (h : fsSeq a b fs = (.ok (), fs')) : ∃ f1, a fs = (.ok (), f1) ∧ b f1 = (.ok (), fs') := by
  unfold fsSeq at h
  split at h
  · next f1 e => exact ⟨f1, e, h⟩
  · cases h

theorem keeps_seq {a b : Fs → Except PyErr Unit × Fs} (ha : ∀ fs, Keeps fs (a fs).2)
    (hb : ∀ fs, Keeps fs (b fs).2) (fs : Fs) : Keeps fs (fsSeq a b fs).2 := by
  have h := ha fs
  unfold fsSeq
  split
  · next f1 e =>
    rw [e] at h
    exact h.trans (hb f1)
  · next f1 e => rw [e] at h; exact h

theorem isSome_keeps {a b : Fs} (h : Keeps a b) {p : FsPath} (hp : (a p).isSome = true) :
    (b p).isSome = true := by
  obtain ⟨n, hn⟩ := Option.isSome_iff_exists.mp hp
  rw [h p n hn]
  rfl

theorem ensureDir_noop {fs : Fs} {p : FsPath} (h : (fs p).isSome = true) :
    ensureDir fs p = (.ok (), fs) := by
  unfold ensureDir
  split
  · next e => rw [e] at h; cases h
  · rfl

theorem ensureFile_noop {fs : Fs} {d : FsPath} {x : String} {n : FsNode}
    (h : (fs (d ++ [x])).isSome = true) : ensureFile fs d x n = (.ok (), fs) := by
  unfold ensureFile
  split
  · rfl
  · next e => rw [e] at h; cases h

theorem fsSeq_of_ok {a b : Fs → Except PyErr Unit × Fs} {fs f1 : Fs} (h : a fs = (.ok (), f1)) :
    fsSeq a b fs = b f1 := by
  unfold fsSeq
  rw [h]

theorem not_prefix_longer {p : FsPath} {x : String} : ¬ (p ++ [x]) <+: p := by
  intro h
  have := h.length_le
  rw [List.length_append, List.length_singleton] at this
  omega

theorem pair_eq {fs : Fs} {r : Except PyErr Unit × Fs} (h : r.1 = .ok ()) (h2 : r.2 = fs) :
    r = (.ok (), fs) := by
  cases r; cases h; cases h2; rfl

/-- **C64**, existing files: whatever the file system looks like and whether or not the command
succeeds, `init` leaves everything that existed unchanged. -/
theorem C64_init_keeps (appdir logdir storage : FsPath) (ha : appdir ≠ []) (hl : logdir ≠ [])
    (hs : storage ≠ []) (settings devices : String) (fs : Fs) :
    Keeps fs (initCmd appdir logdir storage settings devices fs).2 := by
  unfold initCmd
  refine keeps_seq (fun f => (ensureDir_spec f appdir ha).1) ?_ fs
  refine fun f => keeps_seq (fun f => (ensureFile_spec f _ _ _).1) ?_ f
  refine fun f => keeps_seq (fun f => (ensureFile_spec f _ _ _).1) ?_ f
  refine fun f => keeps_seq (fun f => (ensureDir_spec f logdir hl).1) ?_ f
  refine fun f => keeps_seq (fun f => (ensureDir_spec f storage hs).1) ?_ f
  exact fun f => (ensureFile_spec f _ _ _).1

/-- **C64**, effect of a successful `init`: the settings, device and database files exist, those
that were missing have their default contents (for the database: unless one of the other
folders lies below it), and another `init`, at any later time, changes nothing. -/
theorem C64_init_creates (appdir logdir storage : FsPath) (ha : appdir ≠ []) (hl : logdir ≠ [])
    (hs : storage ≠ []) (settings devices : String) (fs fs' : Fs)
    (h : initCmd appdir logdir storage settings devices fs = (.ok (), fs')) :
    (fs (appdir ++ ["settings.toml"]) = none →
      fs' (appdir ++ ["settings.toml"]) = some (.text settings)) ∧
    (fs (appdir ++ ["devices.yml"]) = none →
      fs' (appdir ++ ["devices.yml"]) = some (.text devices)) ∧
    (fs (storage ++ ["dbpath.sqlite"]) = none → ¬ storage ++ ["dbpath.sqlite"] <+: appdir →
      ¬ storage ++ ["dbpath.sqlite"] <+: logdir →
      fs' (storage ++ ["dbpath.sqlite"]) = some (.db newDb)) ∧
    (fs' logdir).isSome = true ∧ (fs' storage).isSome = true ∧
    (∀ settings' devices', initCmd appdir logdir storage settings' devices' fs' = (.ok (), fs')) := by
  unfold initCmd at h
  obtain ⟨f1, e1, h⟩ := fsSeq_ok h
  obtain ⟨f2, e2, h⟩ := fsSeq_ok h
  obtain ⟨f3, e3, h⟩ := fsSeq_ok h
  obtain ⟨f4, e4, h⟩ := fsSeq_ok h
  obtain ⟨f5, e5, e6⟩ := fsSeq_ok h
  obtain ⟨k1, s1, n1, _⟩ := ensureDir_spec fs appdir ha
  obtain ⟨k2, s2, n2, _⟩ := ensureFile_spec f1 appdir "settings.toml" (.text settings)
  obtain ⟨k3, s3, n3, _⟩ := ensureFile_spec f2 appdir "devices.yml" (.text devices)
  obtain ⟨k4, s4, n4, _⟩ := ensureDir_spec f3 logdir hl
  obtain ⟨k5, s5, n5, _⟩ := ensureDir_spec f4 storage hs
  obtain ⟨k6, s6, n6, _⟩ := ensureFile_spec f5 storage "dbpath.sqlite" (.db newDb)
  rw [e1] at k1 s1 n1
  rw [e2] at k2 s2 n2
  rw [e3] at k3 s3 n3
  rw [e4] at k4 s4 n4
  rw [e5] at k5 s5 n5
  rw [e6] at k6 s6 n6
  have s1 := s1 rfl
  have s2 := s2 rfl
  have s3 := s3 rfl
  have s4 := s4 rfl
  have s5 := s5 rfl
  have s6 := s6 rfl
  simp only at k1 k2 k3 k4 k5 k6 n1 n2 n3 n4 n5 n6
  have k36 := (k4.trans k5).trans k6
  have k26 := k3.trans k36
  -- a path new in `fs'` appeared in one of the steps
  refine ⟨?_, ?_, ?_, isSome_keeps (k5.trans k6) s4, isSome_keeps k6 s5, ?_⟩
  · intro hn
    have hf1 : f1 (appdir ++ ["settings.toml"]) = none := by
      cases hx : f1 (appdir ++ ["settings.toml"]) with
      | none => rfl
      | some x => exact absurd (n1 _ _ hx hn).2 not_prefix_longer
    obtain ⟨x, hx⟩ := Option.isSome_iff_exists.mp s2
    have := (n2 _ _ hx hf1).2
    rw [this] at hx
    exact k26 _ _ hx
  · intro hn
    have hf1 : f1 (appdir ++ ["devices.yml"]) = none := by
      cases hx : f1 (appdir ++ ["devices.yml"]) with
      | none => rfl
      | some x => exact absurd (n1 _ _ hx hn).2 not_prefix_longer
    have hf2 : f2 (appdir ++ ["devices.yml"]) = none := by
      cases hx : f2 (appdir ++ ["devices.yml"]) with
      | none => rfl
      | some x =>
        have := (n2 _ _ hx hf1).1
        have := List.append_cancel_left this
        simp at this
    obtain ⟨x, hx⟩ := Option.isSome_iff_exists.mp s3
    have := (n3 _ _ hx hf2).2
    rw [this] at hx
    exact k36 _ _ hx
  · intro hn hna hnl
    have hlast : ∀ (d : FsPath) (x : String), storage ++ ["dbpath.sqlite"] = d ++ [x] →
        x = "dbpath.sqlite" := by
      intro d x he
      have := congrArg List.getLast? he
      simpa using this.symm
    have hf1 : f1 (storage ++ ["dbpath.sqlite"]) = none := by
      cases hx : f1 (storage ++ ["dbpath.sqlite"]) with
      | none => rfl
      | some x => exact absurd (n1 _ _ hx hn).2 hna
    have hf2 : f2 (storage ++ ["dbpath.sqlite"]) = none := by
      cases hx : f2 (storage ++ ["dbpath.sqlite"]) with
      | none => rfl
      | some x => exact absurd (hlast _ _ (n2 _ _ hx hf1).1) (by decide)
    have hf3 : f3 (storage ++ ["dbpath.sqlite"]) = none := by
      cases hx : f3 (storage ++ ["dbpath.sqlite"]) with
      | none => rfl
      | some x => exact absurd (hlast _ _ (n3 _ _ hx hf2).1) (by decide)
    have hf4 : f4 (storage ++ ["dbpath.sqlite"]) = none := by
      cases hx : f4 (storage ++ ["dbpath.sqlite"]) with
      | none => rfl
      | some x => exact absurd (n4 _ _ hx hf3).2 hnl
    have hf5 : f5 (storage ++ ["dbpath.sqlite"]) = none := by
      cases hx : f5 (storage ++ ["dbpath.sqlite"]) with
      | none => rfl
      | some x => exact absurd (n5 _ _ hx hf4).2 not_prefix_longer
    obtain ⟨x, hx⟩ := Option.isSome_iff_exists.mp s6
    have := (n6 _ _ hx hf5).2
    rw [this] at hx
    exact hx
  · intro s' d'
    unfold initCmd
    rw [fsSeq_of_ok (ensureDir_noop (isSome_keeps (k2.trans k26) s1)),
      fsSeq_of_ok (ensureFile_noop (isSome_keeps k26 s2)),
      fsSeq_of_ok (ensureFile_noop (isSome_keeps k36 s3)),
      fsSeq_of_ok (ensureDir_noop (isSome_keeps (k5.trans k6) s4)),
      fsSeq_of_ok (ensureDir_noop (isSome_keeps k6 s5))]
    exact ensureFile_noop s6

/-- **C64**, when `init` succeeds: on every file system in which no file is in the way of the
folders to be made (and the two configuration files are not themselves on the way). -/
theorem C64_init_succeeds (appdir logdir storage : FsPath) (ha : appdir ≠ []) (hl : logdir ≠ [])
    (hs : storage ≠ []) (settings devices : String) (fs : Fs)
    (hfree : ∀ q, q <+: appdir ∨ q <+: logdir ∨ q <+: storage → fs q = none ∨ fs q = some .dir)
    (hoff : ∀ x ∈ ["settings.toml", "devices.yml"],
      ¬ appdir ++ [x] <+: logdir ∧ ¬ appdir ++ [x] <+: storage) :
    ∃ fs', initCmd appdir logdir storage settings devices fs = (.ok (), fs') := by
  unfold initCmd
  obtain ⟨k1, _, n1, o1⟩ := ensureDir_spec fs appdir ha
  obtain ⟨o1, d1⟩ := o1 (fun q hq => hfree q (Or.inl hq))
  have e1 := pair_eq o1 rfl
  generalize hf1 : (ensureDir fs appdir).2 = f1 at *
  rw [fsSeq_of_ok e1]
  obtain ⟨k2, _, n2, o2⟩ := ensureFile_spec f1 appdir "settings.toml" (.text settings)
  have e2 := pair_eq (o2 d1) rfl
  generalize hf2 : (ensureFile f1 appdir "settings.toml" (.text settings)).2 = f2 at *
  rw [fsSeq_of_ok e2]
  obtain ⟨k3, _, n3, o3⟩ := ensureFile_spec f2 appdir "devices.yml" (.text devices)
  have e3 := pair_eq (o3 (k2 _ _ d1)) rfl
  generalize hf3 : (ensureFile f2 appdir "devices.yml" (.text devices)).2 = f3 at *
  rw [fsSeq_of_ok e3]
  have free3 : ∀ q, q <+: logdir ∨ q <+: storage → f3 q = none ∨ f3 q = some .dir := by
    intro q hq
    have hq0 := hfree q (Or.inr hq)
    cases hx : f3 q with
    | none => exact Or.inl rfl
    | some x =>
      right
      cases h2 : f2 q with
      | some y =>
        have := k3 _ _ h2
        rw [hx] at this
        cases this
        cases h1 : f1 q with
        | some z =>
          have := k2 _ _ h1
          rw [h2] at this
          cases this
          rcases hq0 with h0 | h0
          · rw [(n1 _ _ h1 h0).1]
          · have := k1 _ _ h0
            rw [h1] at this
            exact this
        | none =>
          have := (n2 _ _ h2 h1).1
          subst this
          have ho := hoff "settings.toml" (by simp)
          rcases hq with h | h
          · exact absurd h ho.1
          · exact absurd h ho.2
      | none =>
        have := (n3 _ _ hx h2).1
        subst this
        have ho := hoff "devices.yml" (by simp)
        rcases hq with h | h
        · exact absurd h ho.1
        · exact absurd h ho.2
  obtain ⟨k4, _, n4, o4⟩ := ensureDir_spec f3 logdir hl
  obtain ⟨o4, _⟩ := o4 (fun q hq => free3 q (Or.inl hq))
  have e4 := pair_eq o4 rfl
  generalize hf4 : (ensureDir f3 logdir).2 = f4 at *
  rw [fsSeq_of_ok e4]
  obtain ⟨_, _, _, o5⟩ := ensureDir_spec f4 storage hs
  obtain ⟨o5, d5⟩ := o5 (by
    intro q hq
    cases hx : f4 q with
    | none => exact Or.inl rfl
    | some x =>
      right
      rcases free3 q (Or.inr hq) with h0 | h0
      · rw [(n4 _ _ hx h0).1]
      · have := k4 _ _ h0
        rw [hx] at this
        exact this)
  have e5 := pair_eq o5 rfl
  generalize hf5 : (ensureDir f4 storage).2 = f5 at *
  rw [fsSeq_of_ok e5]
  obtain ⟨_, _, _, o6⟩ := ensureFile_spec f5 storage "dbpath.sqlite" (.db newDb)
  exact ⟨_, pair_eq (o6 d5) rfl⟩

/-- A file system with an own settings file. -/
def fsOwn : Fs := fun p =>
  if p = ["etc"] then some .dir
  else if p = ["etc", "settings.toml"] then some (.text "mine") else none

example : ∃ fs', initCmd ["etc"] ["log"] ["data", "Jobs"] "default" "devices" fsOwn = (.ok (), fs') ∧
    fs' ["etc", "settings.toml"] = some (.text "mine") ∧
    fs' ["etc", "devices.yml"] = some (.text "devices") ∧
    fs' ["data", "Jobs", "dbpath.sqlite"] = some (.db newDb) := by
  refine ⟨(initCmd ["etc"] ["log"] ["data", "Jobs"] "default" "devices" fsOwn).2, rfl, ?_, ?_, ?_⟩ <;>
    rfl

/-! ## C31 -/

/-- **C31** (partial): opening a current database changes nothing; opening a file without a queue
creates the missing tables, empty, keeps all others, and marks the file as current.
Missing: databases of older versions, which are not upgraded (`C31_refuted`) unless python runs
without assertions (`C31_without_assertions`). -/
theorem C31_setup_partial (n : Nat) (db : DbFile) :
    (Dict.mem db.tables "queue" = true → db.version = 3 → setupDb true n db = some (.ok db)) ∧
    (Dict.mem db.tables "queue" = false → ∃ db', setupDb true n db = some (.ok db') ∧
      db'.version = 3 ∧ Dict.get? db'.tables "queue" = some { cols := queueCols, rows := [] } ∧
      (∀ t cols, (t, cols) ∈ [("pipelines", pipelinesCols), ("drivers", driversCols)] →
        Dict.get? db'.tables t = some ((Dict.get? db.tables t).getD { cols := cols, rows := [] })) ∧
      (∀ t, t ∉ ["queue", "pipelines", "drivers"] →
        Dict.get? db'.tables t = Dict.get? db.tables t)) := by
  constructor
  · intro h1 h2
    unfold setupDb
    rw [if_pos h1]
    simp only [h2, ne_eq, not_true_eq_false, decide_false, Bool.and_false, Bool.false_eq_true,
      if_false]
    cases n <;> simp [upgradeLoop, h2]
  · intro h1
    have key : ∀ (d : DbFile) (n : String) (c : List String) (t : String),
        Dict.get? (createTable n c d).tables t =
          if t = n then some ((Dict.get? d.tables n).getD { cols := c }) else Dict.get? d.tables t := by
      intro d n c t
      unfold createTable
      split
      · next hm =>
        split
        · next e =>
          subst e
          obtain ⟨v, hv⟩ := Option.isSome_iff_exists.mp hm
          rw [hv]; rfl
        · rfl
      · next hm =>
        rw [Dict.get?_set]
        by_cases e : t = n
        · subst e
          have : Dict.get? d.tables t = none := by
            cases hg : Dict.get? d.tables t with
            | none => rfl
            | some v => exact absurd (by simp [Dict.mem, hg]) hm
          simp [this]
        · rw [if_neg (fun h => e h.symm), if_neg e]
    have hnone : Dict.get? db.tables "queue" = none := by
      cases hg : Dict.get? db.tables "queue" with
      | none => rfl
      | some v => simp [Dict.mem, hg] at h1
    refine ⟨createSteps.foldl (fun d f => f d) db, by simp [setupDb, h1], rfl, ?_, ?_, ?_⟩
    · simp only [createSteps, List.foldl_cons, List.foldl_nil, setVersion, key, hnone]
      rfl
    · intro t cols ht
      simp only [List.mem_cons, Prod.mk.injEq, List.not_mem_nil, or_false] at ht
      rcases ht with ⟨rfl, rfl⟩ | ⟨rfl, rfl⟩
      · simp only [createSteps, List.foldl_cons, List.foldl_nil, setVersion, key]
        rfl
      · simp only [createSteps, List.foldl_cons, List.foldl_nil, setVersion, key]
        rfl
    · intro t ht
      simp only [List.mem_cons, List.not_mem_nil, or_false, not_or] at ht
      simp only [createSteps, List.foldl_cons, List.foldl_nil, setVersion, key, ht.1, ht.2.1,
        ht.2.2, if_false]

/-- **C31 is false of the code**: no database of an older version is ever upgraded, opening it
fails with an `AssertionError` (so the daemon does not start). -/
theorem C31_refuted (n : Nat) (db : DbFile) (h : Dict.mem db.tables "queue" = true)
    (hv : db.version < 3) : setupDb true n db = some (.error .assertionError) := by
  unfold setupDb
  rw [if_pos h, if_pos]
  simp only [Bool.true_and, decide_eq_true_eq]
  omega

/-- Creating a database is not atomic: after an interruption behind its first statement, the
file can never be opened again. -/
theorem C31_refuted_interrupted (k n : Nat) (h1 : 1 ≤ k) (h2 : k < 4) :
    setupDb true n ((createSteps.take k).foldl (fun d f => f d) {}) =
      some (.error .assertionError) := by
  have : k = 1 ∨ k = 2 ∨ k = 3 := by omega
  rcases this with rfl | rfl | rfl <;> rfl

/-- The layout of version 1. -/
def queueCols1 : List String :=
  ["id", "payload", "jobname", "pid", "status", "submitted_at", "executed_at", "completed_at",
   "jobpath", "respath", "snappath"]

theorem get?_rename {r : Dict String SqlVal} {old new : String} (hn : new ∉ Dict.keys r) (hne : old ≠ new)
    (c : String) :
    Dict.get? (r.map (fun kv => (renameIn old new kv.1, kv.2))) c =
      if c = new then Dict.get? r old else if c = old then none else Dict.get? r c := by
  induction r with
  | nil => simp
  | cons kv r ih =>
    obtain ⟨k, v⟩ := kv
    simp only [Dict.keys, List.map_cons, List.mem_cons, not_or] at hn
    have ih := ih hn.2
    simp only [List.map_cons, Dict.get?, ih]
    by_cases hk : k = old
    · subst hk
      simp only [renameIn, if_true]
      by_cases hc : c = new
      · subst hc; simp
      · rw [if_neg (fun h => hc h.symm), if_neg hc, if_neg hc]
        by_cases hc2 : c = k
        · rw [if_pos hc2, if_pos hc2]
        · rw [if_neg hc2, if_neg hc2, if_neg (fun h => hc2 h.symm)]
    · simp only [renameIn, if_neg hk]
      by_cases hc : c = new
      · subst hc
        rw [if_neg (fun h => hn.1 h.symm), if_pos rfl, if_pos rfl]
      · rw [if_neg hc, if_neg hc]
        by_cases hc2 : c = old
        · subst hc2
          rw [if_neg hk, if_pos rfl, if_pos rfl]
        · rw [if_neg hc2, if_neg hc2]

theorem get?_snoc {r : Dict String SqlVal} {k : String} {v : SqlVal} (c : String) :
    Dict.get? (r ++ [(k, v)]) c = (Dict.get? r c).or (if k = c then some v else none) := by
  induction r with
  | nil => simp [Dict.get?]
  | cons kv r ih =>
    obtain ⟨k', v'⟩ := kv
    simp only [List.cons_append, Dict.get?, ih]
    split <;> simp

/-- The new row. -/
def upgradeRow (r : Dict String SqlVal) : Dict String SqlVal :=
  let r2 := r.map (fun kv => (renameIn "executed_at" "connected_at" kv.1, kv.2)) ++
    [("launched_at", none)]
  Dict.set r2 "launched_at" ((Dict.get? r2 "connected_at").getD none)

theorem upgradeRow_get (r : Dict String SqlVal) (hr : Dict.keys r = queueCols1) (c : String)
    (hc : c ∈ queueCols) : Dict.get? (upgradeRow r) c =
      if c = "connected_at" ∨ c = "launched_at" then Dict.get? r "executed_at"
      else Dict.get? r c := by
  have hn : "connected_at" ∉ Dict.keys r := by rw [hr]; decide
  have hx : (Dict.get? r "executed_at").isSome = true := Dict.mem_keys_iff.mp (by rw [hr]; decide)
  obtain ⟨v, hv⟩ := Option.isSome_iff_exists.mp hx
  have hce : c ≠ "executed_at" := by rintro rfl; exact absurd hc (by decide)
  simp only [upgradeRow, Dict.get?_set, get?_snoc, get?_rename hn (show "executed_at" ≠ "connected_at" by decide)]
  by_cases h1 : c = "launched_at"
  · subst h1; simp [hv]
  · rw [if_neg (fun h => h1 h.symm)]
    by_cases h2 : c = "connected_at"
    · subst h2; simp [hv]
    · simp only [h1, h2, or_self, if_false, hce]
      rw [if_neg (fun h => h1 h.symm)]
      simp

/-- The new queue. -/
def upgradedQueue (rows : List (Dict String SqlVal)) : Table where
  cols := queueCols1.map (renameIn "executed_at" "connected_at") ++ ["launched_at"]
  rows := rows.map upgradeRow

/-- A database of version 1 with one job. -/
def db1 : DbFile where
  version := 1
  tables := [("queue", ⟨queueCols1, [queueCols1.map (fun c => (c, some c))]⟩)]

/-- **C31** without assertions (`python -O`): a database of version 1 is upgraded to the current
version and layout (up to the order of the columns) and keeps every job with all its values;
a job's start time is stored in both new columns. -/
theorem C31_without_assertions (n : Nat) (db : DbFile) (rows : List (Dict String SqlVal))
    (hq : Dict.get? db.tables "queue" = some { cols := queueCols1, rows := rows })
    (hr : ∀ r ∈ rows, Dict.keys r = queueCols1) (hv : db.version = 1) :
    ∃ db' cols' rows', setupDb false (n + 2) db = some (.ok db') ∧ db'.version = 3 ∧
      Dict.get? db'.tables "queue" = some { cols := cols', rows := rows' } ∧
      (∀ c, c ∈ cols' ↔ c ∈ queueCols) ∧ rows'.length = rows.length ∧
      (∀ i (h : i < rows.length) (h' : i < rows'.length), ∀ c ∈ queueCols,
        Dict.get? rows'[i] c = if c = "connected_at" ∨ c = "launched_at"
          then Dict.get? rows[i] "executed_at" else Dict.get? rows[i] c) := by
  have hm : Dict.mem db.tables "queue" = true := by simp [Dict.mem, hq]
  have h12 : upgrade12 db = .ok (setVersion 2 { db with tables := Dict.set db.tables "queue" (upgradedQueue rows) }) := by
    unfold upgrade12
    rw [hq]
    have e1 : renameColumn "executed_at" "connected_at" { cols := queueCols1, rows := rows } =
      .ok { cols := queueCols1.map (renameIn "executed_at" "connected_at"),
            rows := rows.map (fun r => r.map
              (fun kv => (renameIn "executed_at" "connected_at" kv.1, kv.2))) } := by
      unfold renameColumn
      rw [if_pos (by simp only; decide)]
    simp only [e1]
    unfold addColumn
    rw [if_neg (by simp only; decide)]
    simp only
    unfold copyColumn
    rw [if_pos (by simp only; decide)]
    simp only [List.map_map]
    rfl
  have hloop : setupDb false (n + 2) db = some (.ok (upgrade23 (setVersion 2
      { db with tables := Dict.set db.tables "queue" (upgradedQueue rows) }))) := by
    unfold setupDb
    rw [if_pos hm]
    simp only [Bool.false_and, Bool.false_eq_true, if_false]
    rw [upgradeLoop, if_pos (by omega)]
    simp only [upgradeTurn, if_pos hv, h12]
    rw [upgradeLoop, if_pos (by simp [setVersion])]
    simp only [setVersion]
    cases n <;> rfl
  refine ⟨_, queueCols1.map (renameIn "executed_at" "connected_at") ++ ["launched_at"],
    rows.map upgradeRow, hloop, rfl, ?_, ?_, by simp, ?_⟩
  · have hk : ∀ (d : DbFile) (m : String) (c : List String), m ≠ "queue" →
        Dict.get? (createTable m c d).tables "queue" = Dict.get? d.tables "queue" := by
      intro d m c hne
      unfold createTable
      split
      · rfl
      · exact Dict.get?_set_ne _ _ hne
    simp only [upgrade23, setVersion]
    rw [hk _ _ _ (by decide), hk _ _ _ (by decide)]
    exact Dict.get?_set_self ..
  · intro c
    simp only [queueCols1, queueCols, renameIn, List.map_cons, List.map_nil, List.mem_append,
      List.mem_cons, List.not_mem_nil, or_false]
    constructor
    · intro h
      rcases h with (h | h | h | h | h | h | h | h | h | h | h) | h <;> (subst h; decide)
    · intro h
      rcases h with h | h | h | h | h | h | h | h | h | h | h | h <;> (subst h; decide)
  · intro i h h' c hc
    rw [List.getElem_map]
    exact upgradeRow_get _ (hr _ (List.getElem_mem h)) c hc

example : ∃ db : DbFile, db.version = 1 ∧ ∃ rows, rows ≠ [] ∧
    Dict.get? db.tables "queue" = some { cols := queueCols1, rows := rows } ∧
    ∀ r ∈ rows, Dict.keys r = queueCols1 :=
  ⟨db1, rfl, [queueCols1.map (fun c => (c, some c))], by decide, rfl, by decide⟩

/-- Without assertions a database of version 0 makes the program run forever. -/
theorem C31_refuted_endless (n : Nat) (db : DbFile) (h : Dict.mem db.tables "queue" = true)
    (hv : db.version = 0) : setupDb false n db = none := by
  have : ∀ n, upgradeLoop n db = none := by
    intro n
    induction n with
    | zero => simp [upgradeLoop, hv]
    | succ n ih => simp [upgradeLoop, upgradeTurn, hv, ih]
  simp [setupDb, h, this]

/-- Without assertions, the upgrade from version 1 is not atomic either: each of its first two statements
takes effect at once.  After an interruption behind the first or the second one, the file can never be
opened again. -/
theorem C31_refuted_interrupted_upgrade (n : Nat) (db : DbFile) (rows : List (Dict String SqlVal)) (t : Table)
    (hv : db.version = 1)
    (ht : renameColumn "executed_at" "connected_at" { cols := queueCols1, rows := rows } = .ok t ∨
      ∃ t', renameColumn "executed_at" "connected_at" { cols := queueCols1, rows := rows } = .ok t' ∧
        addColumn "launched_at" t' = .ok t)
    (hq : Dict.get? db.tables "queue" = some t) :
    setupDb false (n + 1) db = some (.error .operationalError) := by
  have hm : Dict.mem db.tables "queue" = true := by simp [Dict.mem, hq]
  have hc : "executed_at" ∉ t.cols := by
    have e1 : ∀ t', renameColumn "executed_at" "connected_at" { cols := queueCols1, rows := rows } = .ok t' →
        t'.cols = queueCols1.map (renameIn "executed_at" "connected_at") := by
      intro t' h
      unfold renameColumn at h
      split at h
      · cases h; rfl
      · cases h
    rcases ht with ht | ⟨t', ht', ht⟩
    · rw [e1 t ht]; decide
    · unfold addColumn at ht
      split at ht
      · cases ht
      · cases ht
        simp only [e1 t' ht']
        decide
  unfold setupDb
  rw [if_pos hm]
  simp only [Bool.false_and, Bool.false_eq_true, if_false]
  rw [upgradeLoop, if_pos (by omega)]
  simp only [upgradeTurn, if_pos hv]
  unfold upgrade12 renameColumn
  rw [hq]
  simp only [hc, false_and, if_false]

example : ∃ t, renameColumn "executed_at" "connected_at"
    { cols := queueCols1, rows := [queueCols1.map (fun c => (c, some c))] } = .ok t := ⟨_, rfl⟩

/-! ## C69 -/

/-- The payload can be upgraded to the other one, in any number of steps. -/
inductive Chain {A : Type} (next : A → Option A) : A → A → Prop where
  | refl (a : A) : Chain next a a
  | step {a b c : A} : next a = some b → Chain next b c → Chain next a c

/-- **C69** (partial): if the library's chain of versions is finite, the upgrade ends; the result
is a version of the submitted payload's chain; every version it passes through is at most the
latest supported one; and it goes on as far as possible: all supported later versions of an
increasing chain are at or before the result.  If the submitted payload is of a supported version,
so is the result.  Missing: payloads submitted in a version above the latest supported one are
queued as they are (`C69_refuted`). -/
theorem C69_upgrade_partial {A : Type} (next : A → Option A) (ver : A → Option Nat) (maxver : Nat)
    (hwf : WellFounded (fun b a => next a = some b)) (p : A) :
    ∃ n q, (∀ m, n ≤ m → upgradePayload next ver maxver m p = some q) ∧ Chain next p q ∧
      ((∀ v, ver p = some v → v ≤ maxver) → ∀ v, ver q = some v → v ≤ maxver) ∧
      (∀ t, next q = some t → ∃ v, ver t = some v ∧ maxver < v) ∧
      ((∀ a b va vb, Chain next a b → ver a = some va → ver b = some vb → va ≤ vb) →
        ∀ x v, Chain next p x → x ≠ p → ver x = some v → v ≤ maxver → Chain next x q) := by
  induction p using hwf.induction with
  | _ p ih =>
    cases hn : next p with
    | none =>
      refine ⟨0, p, ?_, .refl p, fun h => h, (fun t ht => by rw [hn] at ht; cases ht), ?_⟩
      · intro m _
        unfold upgradePayload
        rw [hn]
      · intro _ x v hx hne
        cases hx with
        | refl => exact absurd rfl hne
        | step h _ => rw [hn] at h; cases h
    | some t =>
      by_cases hv : (ver t).any (fun v => decide (maxver < v)) = true
      · have hex : ∃ v, ver t = some v ∧ maxver < v := by
          cases hvt : ver t with
          | none => rw [hvt] at hv; cases hv
          | some v => rw [hvt] at hv; exact ⟨v, rfl, by simpa using hv⟩
        obtain ⟨v, hvt, hgt⟩ := hex
        refine ⟨0, p, ?_, .refl p, fun h => h, ?_, ?_⟩
        · intro m _
          unfold upgradePayload
          rw [hn]
          simp only [hv, if_true]
        · intro t' ht'
          rw [hn] at ht'
          cases ht'
          exact ⟨v, hvt, hgt⟩
        · intro hmono x vx hx hne hxv hle
          cases hx with
          | refl => exact absurd rfl hne
          | step h hc =>
            rw [hn] at h
            cases h
            have := hmono _ _ _ _ hc hvt hxv
            omega
      · obtain ⟨n, q, h1, h2, h3, h4, h5⟩ := ih t hn
        have hvt : ∀ v, ver t = some v → v ≤ maxver := by
          intro v hvt
          rw [hvt] at hv
          simp only [Option.any_some, decide_eq_true_eq] at hv
          omega
        refine ⟨n + 1, q, ?_, .step hn h2, fun _ => h3 hvt, h4, ?_⟩
        · intro m hm
          obtain ⟨m', rfl⟩ : ∃ m', m = m' + 1 := ⟨m - 1, by omega⟩
          unfold upgradePayload
          rw [hn]
          simp only [hv, Bool.false_eq_true, if_false]
          exact h1 m' (by omega)
        · intro hmono x v hx hne hxv hle
          cases hx with
          | refl => exact absurd rfl hne
          | step h hc =>
            rw [hn] at h
            cases h
            by_cases e : x = t
            · subst e; exact h2
            · exact h5 hmono x v hc e hxv hle

/-- Versions 0 to 3, each with the next as its upgrade. -/
def nextVer (v : Nat) : Option Nat := if v < 3 then some (v + 1) else none

theorem nextVer_wf : WellFounded (fun b a => nextVer a = some b) := by
  apply Subrelation.wf (r := InvImage (· < ·) (fun a => 3 - a)) _ (InvImage.wf _ Nat.lt_wfRel.wf)
  intro b a h
  simp only [nextVer] at h
  split at h
  · cases h; simp only [InvImage]; omega
  · cases h

example : WellFounded (fun b a => nextVer a = some b) ∧
    upgradePayload nextVer some 2 5 0 = some 2 := ⟨nextVer_wf, rfl⟩

/-- **C69 is false of the code** for a payload of a version above the latest supported one:
it is queued in this version. -/
theorem C69_refuted : ∃ (next : Nat → Option Nat) (maxver p : Nat),
    WellFounded (fun b a => next a = some b) ∧
    ∃ q, upgradePayload next some maxver 9 p = some q ∧ maxver < q :=
  ⟨nextVer, 2, 3, nextVer_wf, 3, rfl, by decide⟩

end Tomato.Props
