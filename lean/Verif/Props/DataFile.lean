import Verif.DataFile

/-!
# The files of intermediate data (C138)
-/

namespace Tomato.Props.DataFiles
open Tomato.DataFile

/-! ## Specification -/

/-- The folder exists, with all folders above it, and is given without `..`. -/
def Exists (dirs : Path → Bool) (folder : Path) : Prop :=
  (∀ n ∈ folder, n ≠ ['.', '.']) ∧ ∀ pre post, folder = pre ++ post → pre ≠ [] → dirs pre = true

/-! ## Proof -/

theorem split_plain (s : List Char) (h : '/' ∉ s) : splitSlash s = [s] := by
  induction s with
  | nil => rfl
  | cons c s ih =>
    have hc : c ≠ '/' := by rintro rfl; exact h (by simp)
    rw [splitSlash, if_neg hc, ih (fun hs => h (by simp [hs]))]

theorem split_slash (s r : List Char) (h : '/' ∉ s) : splitSlash (s ++ '/' :: r) = s :: splitSlash r := by
  induction s with
  | nil => simp [splitSlash]
  | cons c s ih =>
    have hc : c ≠ '/' := by rintro rfl; exact h (by simp)
    rw [List.cons_append, splitSlash, if_neg hc, ih (fun hs => h (by simp [hs]))]

theorem split_long (t : List Char) : ∃ n ∈ splitSlash (t ++ ".pkl".toList), 4 ≤ n.length := by
  induction t with
  | nil => exact ⟨".pkl".toList, by decide, by decide⟩
  | cons c t ih =>
    obtain ⟨n, hn, hl⟩ := ih
    rw [List.cons_append, splitSlash]
    split
    · exact ⟨n, List.mem_cons_of_mem _ hn, hl⟩
    · cases hs : splitSlash (t ++ ".pkl".toList) with
      | nil => rw [hs] at hn; cases hn
      | cons m r =>
        rw [hs] at hn
        rcases List.mem_cons.mp hn with rfl | hn
        · exact ⟨c :: n, by simp, by simp; omega⟩
        · exact ⟨n, by simp [hn], hl⟩

theorem parts_ne (t : List Char) : parts (t ++ ".pkl".toList) ≠ [] := by
  obtain ⟨n, hn, hl⟩ := split_long t
  intro h
  unfold parts at h
  rw [List.filter_eq_nil_iff] at h
  have := h n hn
  apply this
  simp only [decide_eq_true_eq]
  constructor
  · rintro rfl; simp at hl
  · rintro rfl; simp at hl

/-- The way into the folder of the job. -/
theorem open_folder {dirs : Path → Bool} (rest : Path) (hr : rest ≠ []) : ∀ (folder at' : Path),
    (∀ n ∈ folder, n ≠ ['.', '.']) → (∀ pre post, folder = pre ++ post → pre ≠ [] → dirs (at' ++ pre) = true) →
    openAt dirs at' (folder ++ rest) = openAt dirs (at' ++ folder) rest := by
  intro folder
  induction folder with
  | nil => intro at' _ _; simp
  | cons n folder ih =>
    intro at' h1 h2
    obtain ⟨m, l, hl⟩ : ∃ m l, folder ++ rest = m :: l := by
      cases h : folder ++ rest with
      | nil => simp at h; exact absurd h.2 hr
      | cons m l => exact ⟨m, l, rfl⟩
    rw [List.cons_append, hl, openAt]
    · have hd := h2 [n] folder rfl (by simp)
      simp only [if_neg (h1 n (by simp)), hd, if_true]
      rw [← hl, ih (at' ++ [n]) (fun x hx => h1 x (by simp [hx]))]
      · simp
      · intro pre post hp _
        have := h2 (n :: pre) post (by simp [hp]) (by simp)
        simpa using this
    · intro h; cases h

/-! ## C138 -/

/-- **C138** (`_partial`: for roles without a slash; see `C138_refuted`): the data of a role is stored in the
folder of the job, in the file named after the role. -/
theorem C138_stored_partial (dirs : Path → Bool) (folder : Path) (role : String) (h : Exists dirs folder)
    (hs : '/' ∉ role.toList) :
    dataFile dirs folder role = .ok (folder ++ [role.toList ++ ".pkl".toList]) := by
  have hno : '/' ∉ role.toList ++ ".pkl".toList := by
    rw [List.mem_append, not_or]
    exact ⟨hs, by decide⟩
  have hp : parts (role.toList ++ ".pkl".toList) = [role.toList ++ ".pkl".toList] := by
    unfold parts
    rw [split_plain _ hno, List.filter_cons_of_pos]
    · rfl
    · simp only [decide_eq_true_eq]
      constructor
      · simp
      · intro e
        have := congrArg List.length e
        simp at this
  have hh : (role.toList ++ ".pkl".toList).head? ≠ some '/' := fun e => hno (List.mem_of_head? e)
  unfold dataFile dataPath
  simp only [if_neg hh]
  rw [hp, open_folder _ (by simp) folder [] h.1 (by simpa using h.2), List.nil_append, openAt, if_neg]
  intro e
  have := congrArg List.length e
  simp at this

/-- **C138** (`_partial`, as above): two jobs, or two roles of one job, do not share a file. -/
theorem C138_own_partial (dirs : Path → Bool) (folder folder' : Path) (role role' : String)
    (h : Exists dirs folder) (h' : Exists dirs folder') (hs : '/' ∉ role.toList) (hs' : '/' ∉ role'.toList)
    (he : dataFile dirs folder role = dataFile dirs folder' role') : folder = folder' ∧ role = role' := by
  rw [C138_stored_partial _ _ _ h hs, C138_stored_partial _ _ _ h' hs'] at he
  have he := Except.ok.inj he
  obtain ⟨h1, h2⟩ := List.append_inj' he rfl
  exact ⟨h1, String.toList_injective (List.append_cancel_right (List.cons.inj h2).1)⟩

/-- **C138**, the remaining roles: if what is before the first slash is the name of something that is not a
folder in that of the job (there are none in it), the data can not be stored. -/
theorem C138_slash (dirs : Path → Bool) (folder : Path) (s r : List Char) (h : Exists dirs folder)
    (hs : '/' ∉ s) (h0 : s ≠ []) (h1 : s ≠ ['.']) (h2 : s ≠ ['.', '.']) (hd : dirs (folder ++ [s]) = false) :
    dataFile dirs folder (String.ofList (s ++ '/' :: r)) = .error .fileNotFoundError := by
  have hp : parts (s ++ '/' :: r ++ ".pkl".toList) = s :: parts (r ++ ".pkl".toList) := by
    unfold parts
    rw [List.append_assoc, List.cons_append, split_slash _ _ hs, List.filter_cons_of_pos]
    simp [h0, h1]
  have hh : (s ++ '/' :: r ++ ".pkl".toList).head? ≠ some '/' := by
    cases s with
    | nil => exact absurd rfl h0
    | cons c s =>
      intro e
      have : c = '/' := by simpa using e
      exact hs (by simp [this])
  unfold dataFile dataPath
  simp only [String.toList_ofList, if_neg hh, hp]
  rw [open_folder _ (by simp) folder [] h.1 (by simpa using h.2), List.nil_append]
  cases hr : parts (r ++ ".pkl".toList) with
  | nil => exact absurd hr (parts_ne r)
  | cons m l =>
    rw [openAt]
    · simp [h2, hd]
    · intro e; cases e

/-- The folders of two jobs. -/
def two (p : Path) : Bool := p ∈ [["J".toList], ["J".toList, "1".toList], ["J".toList, "2".toList]]

theorem two_exists (n : List Char) (hn : n = "1".toList ∨ n = "2".toList) : Exists two ["J".toList, n] := by
  constructor
  · rcases hn with rfl | rfl <;> decide
  · intro pre post he hne
    match pre, he with
    | [], _ => exact absurd rfl hne
    | [a], he => cases he; decide
    | [a, b], he => cases he; rcases hn with rfl | rfl <;> decide
    | _ :: _ :: _ :: _, he => simp at he

example : Exists two ["J".toList, "1".toList] ∧ '/' ∉ "main".toList ∧ two ["J".toList, "1".toList, "a".toList] = false :=
  ⟨two_exists _ (.inl rfl), by decide, by decide⟩

/-- **C138** is violated for roles with a slash: job 2 with the role `../1/main` writes to the file of the role
`main` of job 1; the roles `main` and `./main` of one job share a file; and the data of `a/b` can not be stored. -/
theorem C138_refuted :
    dataFile two ["J".toList, "2".toList] "../1/main" = .ok ["J".toList, "1".toList, "main.pkl".toList] ∧
    dataFile two ["J".toList, "1".toList] "main" = .ok ["J".toList, "1".toList, "main.pkl".toList] ∧
    dataFile two ["J".toList, "1".toList] "./main" = .ok ["J".toList, "1".toList, "main.pkl".toList] ∧
    dataFile two ["J".toList, "1".toList] "a/b" = .error .fileNotFoundError :=
  ⟨rfl, rfl, rfl, rfl⟩

/-- **C138** is violated for every role of every job: each other job in the same place can write to its file. -/
theorem C138_refuted_every (dirs : Path → Bool) (base : Path) (a b : Name) (role : String) (hne : base ≠ [])
    (ha : Exists dirs (base ++ [a])) (hb : Exists dirs (base ++ [b])) (hs : '/' ∉ role.toList) (hbs : '/' ∉ b)
    (h0 : b ≠ []) (h1 : b ≠ ['.']) :
    dataFile dirs (base ++ [a]) (String.ofList ("../".toList ++ b ++ '/' :: role.toList)) =
      dataFile dirs (base ++ [b]) role := by
  rw [C138_stored_partial _ _ _ hb hs]
  have hno : '/' ∉ role.toList ++ ".pkl".toList := by
    rw [List.mem_append, not_or]
    exact ⟨hs, by decide⟩
  have hl : 4 ≤ (role.toList ++ ".pkl".toList).length := by simp
  have hf : ∀ n : Name, 4 ≤ n.length → n ≠ [] ∧ n ≠ ['.'] ∧ n ≠ ['.', '.'] := by
    intro n hn
    refine ⟨?_, ?_, ?_⟩ <;> rintro rfl <;> simp at hn
  obtain ⟨f0, f1, f2⟩ := hf _ hl
  have he : "../".toList ++ b ++ '/' :: role.toList ++ ".pkl".toList =
      ['.', '.'] ++ '/' :: (b ++ '/' :: (role.toList ++ ".pkl".toList)) := by simp
  have hp : parts ("../".toList ++ b ++ '/' :: role.toList ++ ".pkl".toList) =
      [['.', '.'], b, role.toList ++ ".pkl".toList] := by
    unfold parts
    rw [he, split_slash _ _ (by decide), split_slash _ _ hbs, split_plain _ hno]
    rw [List.filter_cons_of_pos (by decide), List.filter_cons_of_pos (by simp [h0, h1]),
      List.filter_cons_of_pos (by rw [decide_eq_true_eq]; exact ⟨f0, f1⟩)]
    rfl
  have hh : ("../".toList ++ b ++ '/' :: role.toList ++ ".pkl".toList).head? ≠ some '/' := by
    rw [he]; simp
  unfold dataFile dataPath
  simp only [String.toList_ofList, if_neg hh]
  rw [hp, open_folder _ (by simp) _ [] ha.1 (by simpa using ha.2), List.nil_append]
  have d1 : dirs base = true := ha.2 base [a] rfl hne
  have d2 : dirs (base ++ [b]) = true := hb.2 (base ++ [b]) [] (by simp) (by simp)
  have hb2 : b ≠ ['.', '.'] := hb.1 b (by simp)
  rw [openAt, if_pos rfl, List.dropLast_concat, if_pos d1, openAt, if_neg hb2, if_pos d2, openAt, if_neg f2]
  all_goals (intro e; cases e)

example : dataFile two ["J".toList, "2".toList] "../1/main" = dataFile two ["J".toList, "1".toList] "main" :=
  C138_refuted_every two ["J".toList] "2".toList "1".toList "main" (by decide) (two_exists _ (.inr rfl))
    (two_exists _ (.inl rfl)) (by decide) (by decide) (by decide) (by decide)

/-- **C138** is violated for every absolute role: all jobs with it share one file. -/
theorem C138_refuted_absolute (dirs : Path → Bool) (folder folder' : Path) (r : List Char) :
    dataFile dirs folder (String.ofList ('/' :: r)) = dataFile dirs folder' (String.ofList ('/' :: r)) := by
  unfold dataFile dataPath
  simp

/-- Such files can be written: `/J/x` is one. -/
example : dataFile two ["J".toList, "2".toList] "/J/x" = .ok ["J".toList, "x.pkl".toList] := rfl

end Tomato.Props.DataFiles
