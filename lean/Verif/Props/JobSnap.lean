import Verif.JobSnap
import Verif.JobThreadLemmas
import Verif.Props.JobConditions

/-!
# Snapshots (C80, C81, C82)

See `Verif/Props/JobSnapRecord.lean` for the record of the job, and C83.
-/

namespace Tomato.Snap

open Tomato.JobT

/-! ## Refinement: the job without its snapshots -/

/-- The events without snapshots. -/
def jbEvs (h : List SEv) : List JEv :=
  h.filterMap (fun e => match e with | .jb e => some e | _ => none)

theorem jbEvs_append (a b : List SEv) : jbEvs (a ++ b) = jbEvs a ++ jbEvs b := by
  simp [jbEvs, List.filterMap_append]

/-- A step is a step of the job without snapshots, or does not change it. -/
theorem sact_jb {iv : Option Nat} {s s' : SJb} {a : SAct} {e : SEv} (h : sact iv s a = some (s', e)) :
    (∃ a' e', act s.jb a' = some (s'.jb, e') ∧ e = .jb e') ∨ (s'.jb = s.jb ∧ jbEvs [e] = []) := by
  cases a with
  | thr k c =>
    simp only [sact] at h
    cases ha : act s.jb (.thr k c) with
    | none => rw [ha] at h; cases h
    | some p => rw [ha] at h; cases h; exact .inl ⟨_, _, ha, rfl⟩
  | main now order =>
    simp only [sact] at h
    obtain ⟨jb, pc, tS, snaps⟩ := s
    cases pc with
    | top =>
      cases iv with
      | none => cases h; exact .inr ⟨rfl, rfl⟩
      | some i =>
        simp only [smain] at h
        split at h
        · split at h
          · cases h; exact .inr ⟨rfl, rfl⟩
          · cases h
        · cases h; exact .inr ⟨rfl, rfl⟩
    | read t todo acc =>
      cases todo with
      | nil => cases h; exact .inr ⟨rfl, rfl⟩
      | cons k todo =>
        simp only [smain] at h
        split at h <;> cases h <;> exact .inr ⟨rfl, rfl⟩
    | loop =>
      simp only [smain] at h
      cases hm : mstep jb with
      | none => rw [hm] at h; cases h
      | some p => rw [hm] at h; cases h; exact .inl ⟨.main, _, hm, rfl⟩
    | dead => cases h

theorem shist_jb {iv : Option Nat} {s₀ : SJb} {h : List SEv} {s : SJb} (hh : SHist iv s₀ h s) :
    Hist s₀.jb (jbEvs h) s.jb := by
  induction hh with
  | init => exact .init
  | step a _ ha ih =>
    rw [jbEvs_append]
    rcases sact_jb ha with ⟨a', e', h1, rfl⟩ | ⟨h1, h2⟩
    · exact .step a' ih h1
    · rw [h1, h2, List.append_nil]; exact ih

/-! ## The schedule -/

/-- The clock readings at the top of the loop. -/
def clocks (h : List SEv) : List Nat :=
  h.filterMap (fun e => match e with | .top t => some t | _ => none)

/-- How many snapshots ought to be taken if the clock is looked at at the times `ts`: at every look,
one more if the next one is due; the `n`-th is due at `t₀ + n * i`. -/
def wanted (t₀ i : Nat) (ts : List Nat) : Nat :=
  ts.foldl (fun n t => if t₀ + (n + 1) * i < t then n + 1 else n) 0

theorem looks_snoc (h : List SEv) (e : SEv) : clocks (h ++ [e]) = clocks h ++ clocks [e] := by
  simp [clocks, List.filterMap_append]

theorem wanted_snoc (t₀ i : Nat) (ts : List Nat) (t : Nat) : wanted t₀ i (ts ++ [t]) =
    if t₀ + (wanted t₀ i ts + 1) * i < t then wanted t₀ i ts + 1 else wanted t₀ i ts := by
  simp only [wanted, List.foldl_append]
  rfl

/-- Invariant for the schedule. -/
structure Sched (t₀ i : Nat) (h : List SEv) (s : SJb) : Prop where
  tS : s.tS = t₀ + s.snaps.length * i
  late : ∀ (n : Nat) (sn : Shot), s.snaps[n]? = some sn → t₀ + (n + 1) * i < sn.time
  count : wanted t₀ i (clocks h) = match s.pc with
    | .top => s.snaps.length
    | .loop => s.snaps.length
    | _ => s.snaps.length + 1
  now : ∀ t todo acc, s.pc = .read t todo acc → t₀ + (s.snaps.length + 1) * i < t

theorem sched {tss : List (List Task)} {t₀ i : Nat} {h : List SEv} {s : SJb}
    (hh : SHist (some i) (SJb.init tss t₀) h s) : Sched t₀ i h s := by
  induction hh with
  | init => exact ⟨by simp [SJb.init], by simp [SJb.init], rfl, by simp [SJb.init]⟩
  | @step h s s' e a _ ha ih =>
    obtain ⟨i1, i2, i3, i4⟩ := ih
    obtain ⟨jb, pc, tS, snaps⟩ := s
    cases a with
    | thr k c =>
      simp only [sact] at ha
      cases hm : act jb (.thr k c) with
      | none => rw [hm] at ha; cases ha
      | some p =>
        rw [hm] at ha; cases ha
        exact ⟨i1, i2, by rw [looks_snoc]; simpa [clocks] using i3, i4⟩
    | main now order =>
      simp only [sact] at ha
      cases pc with
      | top =>
        simp only [smain] at ha
        simp only at i1 i3
        split at ha
        · next hnow =>
          split at ha
          · cases ha
            refine ⟨i1, i2, ?_, ?_⟩
            · rw [looks_snoc]
              simp only [clocks, List.filterMap_cons, List.filterMap_nil] at i3 ⊢
              rw [wanted_snoc, i3, if_pos]
              rw [Nat.add_mul]
              omega
            · intro t todo acc hp
              cases hp
              simp only
              rw [Nat.add_mul]
              omega
          · cases ha
        · next hnow =>
          cases ha
          refine ⟨i1, i2, ?_, by simp⟩
          rw [looks_snoc]
          simp only [clocks, List.filterMap_cons, List.filterMap_nil] at i3 ⊢
          rw [wanted_snoc, i3, if_neg]
          rw [Nat.add_mul]
          omega
      | read t todo acc =>
        have hlate := i4 t todo acc rfl
        simp only at i1 i3 hlate
        cases todo with
        | nil =>
          simp only [smain] at ha
          cases ha
          refine ⟨?_, ?_, ?_, by simp⟩
          · simp only [Option.getD_some, List.length_append, List.length_singleton]
            rw [Nat.add_mul]
            omega
          · intro n sn hn
            simp only at hn
            rw [List.getElem?_append] at hn
            split at hn
            · exact i2 n sn hn
            · have hn' : n - snaps.length = 0 := by
                have := (List.getElem?_eq_some_iff.mp hn).1
                simp at this
                omega
              rw [hn'] at hn
              cases hn
              have : n = snaps.length := by omega
              rw [this]
              exact hlate
          · rw [looks_snoc]
            simpa [clocks] using i3
        | cons k todo =>
          simp only [smain] at ha
          split at ha
          · cases ha
            refine ⟨i1, i2, ?_, ?_⟩
            · rw [looks_snoc]; simpa [clocks] using i3
            · intro t' todo' acc' hp
              cases hp
              exact hlate
          · cases ha
            refine ⟨i1, i2, ?_, by simp⟩
            rw [looks_snoc]; simpa [clocks] using i3
      | loop =>
        simp only [smain] at ha
        cases hm : mstep jb with
        | none => rw [hm] at ha; cases ha
        | some p =>
          rw [hm] at ha; cases ha
          refine ⟨i1, i2, ?_, ?_⟩
          · rw [looks_snoc]
            simp only [clocks, List.filterMap_cons, List.filterMap_nil, List.append_nil] at i3 ⊢
            rw [i3]
            split
            · next hp => split at hp <;> first | rfl | cases hp
            · rfl
            · next h1 h2 => 
              split at h1
              all_goals simp_all
          · intro t todo acc hp
            simp only at hp
            split at hp <;> cases hp
      | dead => cases ha

/-! ## The content -/

/-- The file of the thread contains at least `d`, or will as soon as it has been written. -/
def Has (d : List Nat) (t : Thr) : Prop :=
  t.file ≠ .absent ∧
  match t.pc with
  | .dump ps _ => d <+: ps
  | .trunc ps _ => d <+: t.file.content ∧ d <+: ps
  | _ => d <+: t.file.content

theorem has_step {d : List Nat} {t t' : Thr} {c : Choice} {e : Ev} (h : Has d t)
    (ha : tstep t c = some (t', e)) : Has d t' := by
  obtain ⟨tk, i, pc, cur, names, noList, crashed, file⟩ := t
  obtain ⟨h0, h⟩ := h
  simp only at h0
  cases pc with
  | wait q =>
    cases ha
    refine ⟨h0, ?_⟩
    simp only at h ⊢
    split
    · next hp =>
      unfold next store at hp
      repeat' split at hp
      all_goals cases hp
    · next hp =>
      unfold next store at hp
      repeat' split at hp
      all_goals cases hp
    · exact h
  | load ps n =>
    simp only [tstep] at ha
    cases file with
    | absent => exact absurd rfl h0
    | broken => cases ha; exact ⟨h0, h⟩
    | data qs => cases ha; exact ⟨h0, h, h.trans (List.prefix_append _ _)⟩
  | trunc ps n => cases ha; exact ⟨by simp, h.2⟩
  | dump ps n =>
    cases ha
    refine ⟨by simp, ?_⟩
    simp only at h
    cases n <;> exact h
  | cur =>
    simp only [tstep] at ha
    split at ha <;> cases ha <;> exact ⟨h0, h⟩
  | hold =>
    simp only [tstep] at ha
    split at ha <;> cases ha <;> exact ⟨h0, h⟩
  | ask q => cases ha; exact ⟨h0, h⟩
  | due =>
    simp only [tstep] at ha
    cases ha
    refine ⟨h0, ?_⟩
    simp only at h ⊢
    split <;> next hp => first | exact h | (split at hp <;> cases hp)
  | trigger =>
    simp only [tstep] at ha
    split at ha <;> cases ha <;> exact ⟨h0, h⟩
  | append =>
    simp only [tstep] at ha
    split at ha <;> cases ha <;> exact ⟨h0, h⟩
  | unset => cases ha; exact ⟨h0, h⟩
  | crash => cases ha; exact ⟨h0, h⟩
  | fin => cases ha
  | exited => cases ha
  | dead => cases ha

/-- The same for thread `k` of the job. -/
def HasJ (d : List Nat) (k : Nat) (s : Jb) : Prop := ∃ t, s.thrs[k]? = some t ∧ Has d t

theorem hasJ_act {d : List Nat} {k : Nat} {s s' : Jb} {a : Act} {e : JEv} (h : HasJ d k s)
    (ha : act s a = some (s', e)) : HasJ d k s' := by
  obtain ⟨t, ht, hd⟩ := h
  have hk : k < s.thrs.length := (List.getElem?_eq_some_iff.mp ht).1
  cases a with
  | thr k' c =>
    simp only [act] at ha
    cases ht' : s.thrs[k']? with
    | none => rw [ht'] at ha; cases ha
    | some t' =>
      rw [ht'] at ha
      simp only at ha
      cases hst : tstep t' c with
      | none => rw [hst] at ha; cases ha
      | some p =>
        rw [hst] at ha
        cases ha
        by_cases hkk : k' = k
        · subst hkk
          rw [ht] at ht'
          cases ht'
          exact ⟨p.1, by simp [List.getElem?_set_self hk], has_step hd hst⟩
        · exact ⟨t, by simp [List.getElem?_set_ne hkk, ht], hd⟩
  | main =>
    simp only [act, mstep] at ha
    split at ha
    · split at ha
      · cases ha; exact ⟨t, ht, hd⟩
      · split at ha <;> cases ha <;> exact ⟨t, ht, hd⟩
    · split at ha
      · cases ha; exact ⟨t, ht, hd⟩
      · next k' _ _ t' ht' =>
        cases ha
        by_cases hkk : k' = k
        · subst hkk
          rw [ht] at ht'
          cases ht'
          exact ⟨{ t with names := s.started ++ t.names }, by simp [List.getElem?_set_self hk], hd⟩
        · exact ⟨t, by simp [List.getElem?_set_ne hkk, ht], hd⟩
    · split at ha <;> cases ha <;> exact ⟨t, ht, hd⟩
    · split at ha
      · split at ha <;> cases ha <;> exact ⟨t, ht, hd⟩
      · cases ha; exact ⟨t, ht, hd⟩
    · cases ha

theorem hasJ_sact {d : List Nat} {k : Nat} {iv : Option Nat} {s s' : SJb} {a : SAct} {e : SEv}
    (h : HasJ d k s.jb) (ha : sact iv s a = some (s', e)) : HasJ d k s'.jb := by
  rcases sact_jb ha with ⟨a', e', h1, -⟩ | ⟨h1, -⟩
  · exact hasJ_act h h1
  · rw [h1]; exact h

/-- What is in the file now. -/
theorem hasJ_self {tss : List (List Task)} {h : List JEv} {s : Jb} (hh : Hist (Jb.init tss) h s)
    {k : Nat} {t : Thr} {d : List Nat} (ht : s.thrs[k]? = some t) (hf : t.file = .data d) :
    HasJ d k s := by
  refine ⟨t, ht, by simp [hf], ?_⟩
  obtain ⟨ts, -, hth⟩ := (hist_thr hh).2 k t ht
  have hok := fileOK hth
  unfold FileOK at hok
  split
  · next hp => rw [hp] at hok; rw [hf] at hok; cases hok.1
  · next hp =>
    rw [hp, hf] at hok
    obtain ⟨-, h1, x, h2⟩ := hok
    rw [hf]
    exact ⟨List.prefix_rfl, x, by rw [h1]; exact h2⟩
  · rw [hf]; exact List.prefix_rfl

/-- It has been delivered. -/
theorem hasJ_delivered {tss : List (List Task)} {h : List JEv} {s : Jb} (hh : Hist (Jb.init tss) h s)
    {k : Nat} {d : List Nat} (hd : HasJ d k s) : d <+: delivered (proj k h) := by
  obtain ⟨t, ht, -, hd⟩ := hd
  obtain ⟨ts, -, hth⟩ := (hist_thr hh).2 k t ht
  have hok := fileOK hth
  unfold FileOK at hok
  obtain ⟨tk, i, pc, cur, names, noList, crashed, file⟩ := t
  cases pc with
  | load ps n => exact hd.trans ⟨ps, hok.2⟩
  | trunc ps n => exact hok.2.1 ▸ hd.2
  | dump ps n => exact hok.2 ▸ hd
  | _ => exact hok.2 ▸ hd

theorem mem_existing {s : Jb} {k : Nat} : k ∈ existing s ↔ ∃ t, s.thrs[k]? = some t ∧ t.file ≠ .absent := by
  unfold existing
  rw [List.mem_filter, List.mem_range]
  constructor
  · rintro ⟨h1, h2⟩
    cases ht : s.thrs[k]? with
    | none => rw [ht] at h2; cases h2
    | some t => rw [ht] at h2; exact ⟨t, rfl, by simpa using h2⟩
  · rintro ⟨t, h1, h2⟩
    refine ⟨(List.getElem?_eq_some_iff.mp h1).1, ?_⟩
    rw [h1]
    simpa using h2

/-- The listed files of a snapshot that was begun in state `sa`. -/
def Covers (sa : Jb) (parts : List (Nat × List Nat)) : Prop :=
  (parts.map Prod.fst).Perm (existing sa) ∧
  ∀ k ps t d, (k, ps) ∈ parts → sa.thrs[k]? = some t → t.file = .data d → d <+: ps

/-- A finished snapshot: it was begun after `a` and written after `b`. -/
def ShotOK (iv : Option Nat) (s₀ : SJb) (h : List SEv) (sn : Shot) : Prop :=
  ∃ a b c sa, h = a ++ .top sn.time :: b ++ .shot sn :: c ∧ SHist iv s₀ a sa ∧ Covers sa.jb sn.parts ∧
    ∀ k ps, (k, ps) ∈ sn.parts → ps <+: delivered (proj k (jbEvs (a ++ .top sn.time :: b)))

/-- `n` contains everything that `m` contains. -/
def Extends (m n : List (Nat × List Nat)) : Prop :=
  ∀ k ps, (k, ps) ∈ m → ∃ ps', (k, ps') ∈ n ∧ ps <+: ps'

/-- Invariant for the content. -/
structure Cont (iv : Option Nat) (s₀ : SJb) (h : List SEv) (s : SJb) : Prop where
  ok : ∀ sn ∈ s.snaps, ShotOK iv s₀ h sn
  has : ∀ sn ∈ s.snaps, ∀ k ps, (k, ps) ∈ sn.parts → HasJ ps k s.jb
  mono : s.snaps.Pairwise (fun m n => Extends m.parts n.parts)
  acc : ∀ t todo acc, s.pc = .read t todo acc →
    (∀ k ps, (k, ps) ∈ acc → HasJ ps k s.jb) ∧
    (∀ k ∈ todo, HasJ [] k s.jb) ∧
    (∀ sn ∈ s.snaps, ∀ k ps, (k, ps) ∈ sn.parts → k ∈ todo ∨ ∃ ps', (k, ps') ∈ acc ∧ ps <+: ps') ∧
    ∃ a b sa, h = a ++ .top t :: b ∧ SHist iv s₀ a sa ∧
      (acc.map Prod.fst ++ todo).Perm (existing sa.jb) ∧
      (∀ k ps t d, (k, ps) ∈ acc → sa.jb.thrs[k]? = some t → t.file = .data d → d <+: ps) ∧
      (∀ k t d, k ∈ todo → sa.jb.thrs[k]? = some t → t.file = .data d → HasJ d k s.jb)

theorem ShotOK.snoc {iv : Option Nat} {s₀ : SJb} {h : List SEv} {sn : Shot} (hs : ShotOK iv s₀ h sn)
    (e : SEv) : ShotOK iv s₀ (h ++ [e]) sn := by
  obtain ⟨a, b, c, sa, h1, h2⟩ := hs
  exact ⟨a, b, c ++ [e], sa, by simp [h1], h2⟩

theorem has_nil {t : Thr} (h : t.file ≠ .absent) : Has [] t := by
  refine ⟨h, ?_⟩
  split <;> simp [List.nil_prefix]

theorem cont {tss : List (List Task)} {t₀ : Nat} {iv : Option Nat} {h : List SEv} {s : SJb}
    (hh : SHist iv (SJb.init tss t₀) h s) : Cont iv (SJb.init tss t₀) h s := by
  induction hh with
  | init => exact ⟨by simp [SJb.init], by simp [SJb.init], by simp [SJb.init], by simp [SJb.init]⟩
  | @step h s s' e a hh ha ih =>
    obtain ⟨i1, i2, i3, i4⟩ := ih
    have hj := shist_jb (.step a hh ha)
    have hjs := shist_jb hh
    -- everything is kept if the snapshots and the reader do not change
    have keep : s'.snaps = s.snaps → (∀ t todo acc, s'.pc = .read t todo acc → s.pc = .read t todo acc) →
        Cont iv (SJb.init tss t₀) (h ++ [e]) s' := by
      intro h1 h2
      refine ⟨?_, ?_, by rw [h1]; exact i3, ?_⟩
      · rw [h1]; exact fun sn hsn => (i1 sn hsn).snoc e
      · rw [h1]; exact fun sn hsn k ps hk => hasJ_sact (i2 sn hsn k ps hk) ha
      · intro t todo acc hp
        obtain ⟨j1, j2, j3, A, b, sa, j4, j5, j6, j7, j8⟩ := i4 t todo acc (h2 t todo acc hp)
        refine ⟨fun k ps hk => hasJ_sact (j1 k ps hk) ha, fun k hk => hasJ_sact (j2 k hk) ha,
          by rw [h1]; exact j3, A, b ++ [e], sa, by simp [j4], j5, j6, j7, ?_⟩
        exact fun k t d hk ht hf => hasJ_sact (j8 k t d hk ht hf) ha
    cases a with
    | thr k c =>
      refine keep ?_ ?_ <;> simp only [sact] at ha <;> cases hm : act s.jb (.thr k c) with
        | none => rw [hm] at ha; cases ha
        | some p => rw [hm] at ha; cases ha; first | rfl | exact fun _ _ _ h => h
    | main now order =>
      have ha' := ha
      simp only [sact] at ha
      cases hpc : s.pc with
      | top =>
        cases iv with
        | none =>
          simp only [smain, hpc] at ha
          cases ha
          exact keep rfl (by simp)
        | some i =>
          simp only [smain, hpc] at ha
          split at ha
          · split at ha
            · next hperm =>
              have hperm := List.isPerm_iff.mp hperm
              cases ha
              refine ⟨fun sn hsn => (i1 sn hsn).snoc _, i2, i3, ?_⟩
              intro t todo acc hp
              cases hp
              refine ⟨by simp, ?_, ?_, h, [], s, rfl, hh, by simpa using hperm, by simp, ?_⟩
              · intro k hk
                obtain ⟨t, ht, hf⟩ := mem_existing.mp (hperm.mem_iff.mp hk)
                exact ⟨t, ht, has_nil hf⟩
              · intro sn hsn k ps hk
                obtain ⟨t, ht, hd⟩ := i2 sn hsn k ps hk
                exact .inl (hperm.mem_iff.mpr (mem_existing.mpr ⟨t, ht, hd.1⟩))
              · intro k t d _ ht hf
                exact hasJ_self hjs ht hf
            · cases ha
          · cases ha
            exact keep rfl (by simp)
      | read t todo acc =>
        obtain ⟨j1, j2, j3, A, b, sa, j4, j5, j6, j7, j8⟩ := i4 t todo acc hpc
        cases todo with
        | nil =>
          simp only [smain, hpc] at ha
          cases ha
          simp only [List.append_nil] at j6
          have hup : ∀ k ps, (k, ps) ∈ acc → ps <+: delivered (proj k (jbEvs h)) :=
            fun k ps hk => hasJ_delivered hjs (j1 k ps hk)
          refine ⟨?_, ?_, ?_, by simp⟩
          · intro sn hsn
            rcases List.mem_append.mp hsn with hsn | hsn
            · exact (i1 sn hsn).snoc _
            · have := List.mem_singleton.mp hsn
              subst this
              exact ⟨A, b, [], sa, by simp [j4], j5, ⟨j6, j7⟩, by rw [← j4]; exact hup⟩
          · intro sn hsn k ps hk
            rcases List.mem_append.mp hsn with hsn | hsn
            · exact i2 sn hsn k ps hk
            · have := List.mem_singleton.mp hsn
              subst this
              exact j1 k ps hk
          · rw [List.pairwise_append]
            refine ⟨i3, by simp, ?_⟩
            intro m hm n hn
            have := List.mem_singleton.mp hn
            subst this
            intro k ps hk
            rcases j3 m hm k ps hk with h | h
            · cases h
            · exact h
        | cons k todo =>
          simp only [smain, hpc] at ha
          split at ha
          · next ps hf =>
            obtain ⟨t', ht', hf'⟩ := Option.map_eq_some_iff.mp hf
            have hself := hasJ_self hjs ht' hf'
            -- earlier data are in the file
            have hpre : ∀ d, HasJ d k s.jb → d <+: ps := by
              rintro d ⟨t'', ht'', -, hd⟩
              rw [ht'] at ht''
              cases ht''
              obtain ⟨ts, -, hth⟩ := (hist_thr hjs).2 k t' ht'
              have hok := fileOK hth
              unfold FileOK at hok
              split at hd
              · next hp => rw [hp, hf'] at hok; cases hok.1
              · rw [hf'] at hd; exact hd.1
              · rw [hf'] at hd; exact hd
            cases ha
            refine ⟨fun sn hsn => (i1 sn hsn).snoc _, i2, i3, ?_⟩
            intro t1 todo1 acc1 hp
            cases hp
            refine ⟨?_, fun k' hk' => j2 k' (by simp [hk']), ?_, A, b ++ [.loaded k ps], sa, by simp [j4], j5, ?_, ?_, ?_⟩
            · intro k' ps' hk'
              rcases List.mem_append.mp hk' with hk' | hk'
              · exact j1 k' ps' hk'
              · cases List.mem_singleton.mp hk'
                exact hself
            · intro sn hsn k' ps' hk'
              rcases j3 sn hsn k' ps' hk' with h | ⟨q, h1, h2⟩
              · rcases List.mem_cons.mp h with rfl | h
                · exact .inr ⟨ps, by simp, hpre ps' (i2 sn hsn k' ps' hk')⟩
                · exact .inl h
              · exact .inr ⟨q, List.mem_append_left _ h1, h2⟩
            · simpa using j6
            · intro k' ps' t1 d hk' ht1 hf1
              rcases List.mem_append.mp hk' with hk' | hk'
              · exact j7 k' ps' t1 d hk' ht1 hf1
              · cases List.mem_singleton.mp hk'
                exact hpre d (j8 k t1 d (by simp) ht1 hf1)
            · intro k' t1 d hk' ht1 hf1
              exact j8 k' t1 d (by simp [hk']) ht1 hf1
          · cases ha
            exact keep rfl (by simp)
      | loop =>
        simp only [smain, hpc] at ha
        cases hm : mstep s.jb with
        | none => rw [hm] at ha; cases ha
        | some p =>
          rw [hm] at ha; cases ha
          refine keep rfl ?_
          intro t todo acc hp
          simp only at hp
          split at hp <;> cases hp
      | dead => simp only [smain, hpc] at ha; cases ha

theorem srun_hist {iv : Option Nat} {s₀ s s' : SJb} {h es : List SEv} {as : List SAct}
    (hh : SHist iv s₀ h s) (hr : srun iv s as = some (s', es)) : SHist iv s₀ (h ++ es) s' := by
  induction as generalizing s h es with
  | nil => cases hr; simpa using hh
  | cons a as ih =>
    simp only [srun] at hr
    cases ha : sact iv s a with
    | none => rw [ha] at hr; cases hr
    | some p =>
      rw [ha] at hr
      simp only at hr
      cases hr' : srun iv p.1 as with
      | none => rw [hr'] at hr; cases hr
      | some q =>
        rw [hr'] at hr
        cases hr
        have := ih (.step a hh ha) hr'
        simpa using this

end Tomato.Snap

namespace Tomato.Props

open Tomato.JobT Tomato.Snap

/-! ## C80 -/

/-- **C80**: the number of snapshots is exactly the number wanted: whenever the main thread clocks at the
clock and the next snapshot is due, it takes one (`+ 1`: being taken, or failed).  The `n`-th snapshot
(from zero) is begun after `t₀ + (n + 1) * i`, never earlier. -/
theorem C80_schedule {tss : List (List Task)} {t₀ i : Nat} {h : List SEv} {s : SJb}
    (hh : SHist (some i) (SJb.init tss t₀) h s) :
    (s.pc = .top ∨ s.pc = .loop → s.snaps.length = wanted t₀ i (clocks h)) ∧
    (s.snaps.length ≤ wanted t₀ i (clocks h) ∧ wanted t₀ i (clocks h) ≤ s.snaps.length + 1) ∧
    ∀ (n : Nat) (sn : Shot), s.snaps[n]? = some sn → t₀ + (n + 1) * i < sn.time := by
  obtain ⟨-, h2, h3, -⟩ := sched hh
  refine ⟨?_, ?_, h2⟩
  · rintro (h | h) <;> rw [h] at h3 <;> exact h3.symm
  · rw [h3]
    split <;> omega

/-- **C80**: without an interval there are no snapshots, and the main loop is the one of
`Verif/JobThread.lean`: it does not fail. -/
theorem C80_none {tss : List (List Task)} {t₀ : Nat} {h : List SEv} {s : SJb}
    (hh : SHist none (SJb.init tss t₀) h s) : s.snaps = [] ∧ (s.pc = .top ∨ s.pc = .loop) := by
  induction hh with
  | init => exact ⟨rfl, .inl rfl⟩
  | @step h s s' e a _ ha ih =>
    obtain ⟨jb, pc, tS, snaps⟩ := s
    obtain ⟨i1, i2⟩ := ih
    simp only at i1 i2
    cases a with
    | thr k c =>
      simp only [sact] at ha
      cases hm : act jb (.thr k c) with
      | none => rw [hm] at ha; cases ha
      | some p => rw [hm] at ha; cases ha; exact ⟨i1, i2⟩
    | main now order =>
      rcases i2 with rfl | rfl
      · cases ha
        exact ⟨i1, .inr rfl⟩
      · simp only [sact, smain] at ha
        cases hm : mstep jb with
        | none => rw [hm] at ha; cases ha
        | some p =>
          rw [hm] at ha; cases ha
          refine ⟨i1, ?_⟩
          simp only
          split
          · exact .inl rfl
          · exact .inr rfl

/-- Steps of threads. -/
def steps (l : List Act) : List SAct :=
  l.map (fun a => match a with | .thr k c => .thr k c | .main => .main 0 [])

/-- The thread asks for data, receives `ps`, and stores them, in all but `n` of the three steps. -/
def fetches (k : Nat) (ps : List Nat) (n : Nat) : List SAct :=
  [.thr k { due := true }, .thr k {}, .thr k { ans := okData ps }] ++ List.replicate (3 - n) (.thr k {})

/-- One component, a snapshot every 5 s: at 3 s not yet, at 6 s the first, at 11 s the second, while
the thread is about to store one more point. -/
def snapRun : List SAct :=
  List.replicate 9 (.main 3 []) ++ steps (begins 0 (task "x" 1)) ++ fetches 0 [1, 2] 0 ++
  -- the first snapshot, and the rest of this pass
  [.main 6 [0], .main 6 [], .main 6 []] ++ List.replicate 8 (.main 6 []) ++
  steps (goes 0 1 ++ hears 0 (okStatus (busySD (task "x" 1))) ++ goes 0 1) ++ fetches 0 [3] 2 ++
  -- the second one
  [.main 11 [0], .main 11 [], .main 11 []]

example : ∃ p, srun (some 5) (SJb.init [[task "x" 1]] 0) snapRun = some p ∧
    p.1.snaps = [⟨6, [(0, [1, 2])]⟩, ⟨11, [(0, [1, 2])]⟩] ∧ clocks p.2 = [3, 6, 11] ∧
    wanted 0 5 [3, 6, 11] = 2 ∧ delivered (proj 0 (jbEvs p.2)) = [1, 2, 3] :=
  ⟨_, rfl, rfl, rfl, rfl, rfl⟩

/-! ## C81 -/

/-- **C81**: every snapshot contains each file that existed when it was begun, once; of each component
it contains everything that was in its file when the snapshot was begun, and otherwise only data that
were delivered by the time it was written, in the order of their delivery. -/
theorem C81_content {tss : List (List Task)} {t₀ : Nat} {iv : Option Nat} {h : List SEv} {s : SJb}
    (hh : SHist iv (SJb.init tss t₀) h s) (sn : Shot) (hsn : sn ∈ s.snaps) :
    ∃ a b c sa, h = a ++ .top sn.time :: b ++ .shot sn :: c ∧ SHist iv (SJb.init tss t₀) a sa ∧
      (sn.parts.map Prod.fst).Nodup ∧
      (∀ k t, sa.jb.thrs[k]? = some t → (t.file ≠ .absent ↔ ∃ ps, (k, ps) ∈ sn.parts)) ∧
      ∀ k ps, (k, ps) ∈ sn.parts →
        (∀ t d, sa.jb.thrs[k]? = some t → t.file = .data d → d <+: ps) ∧
        ps <+: delivered (proj k (jbEvs (a ++ .top sn.time :: b))) := by
  obtain ⟨a, b, c, sa, h1, h2, ⟨h3, h4⟩, h5⟩ := (cont hh).ok sn hsn
  refine ⟨a, b, c, sa, h1, h2, ?_, ?_, ?_⟩
  · exact h3.nodup_iff.mpr (List.nodup_range.filter _)
  · intro k t ht
    constructor
    · intro hf
      have : k ∈ sn.parts.map Prod.fst := h3.mem_iff.mpr (mem_existing.mpr ⟨t, ht, hf⟩)
      obtain ⟨⟨k', ps⟩, hm, rfl⟩ := List.mem_map.mp this
      exact ⟨ps, hm⟩
    · rintro ⟨ps, hm⟩
      have : k ∈ sn.parts.map Prod.fst := List.mem_map.mpr ⟨_, hm, rfl⟩
      obtain ⟨t', ht', hf⟩ := mem_existing.mp (h3.mem_iff.mp this)
      rw [ht] at ht'
      cases ht'
      exact hf
  · intro k ps hk
    exact ⟨fun t d ht hf => h4 k ps t d hk ht hf, h5 k ps hk⟩

/-- **C81**: snapshots only grow: a later one contains every component of an earlier one, with at least
its data; and the file of the component always does, except while it is being written. -/
theorem C81_growing {tss : List (List Task)} {t₀ : Nat} {iv : Option Nat} {h : List SEv} {s : SJb}
    (hh : SHist iv (SJb.init tss t₀) h s) :
    s.snaps.Pairwise (fun m n => ∀ k ps, (k, ps) ∈ m.parts → ∃ ps', (k, ps') ∈ n.parts ∧ ps <+: ps') ∧
    ∀ sn ∈ s.snaps, ∀ k ps, (k, ps) ∈ sn.parts → ∃ t, s.jb.thrs[k]? = some t ∧
      (t.file = .broken ∨ ps <+: t.file.content) := by
  have hc := cont hh
  refine ⟨hc.mono, fun sn hsn k ps hk => ?_⟩
  obtain ⟨t, ht, hd⟩ := hc.has sn hsn k ps hk
  refine ⟨t, ht, ?_⟩
  obtain ⟨ts, -, hth⟩ := (hist_thr (shist_jb hh)).2 k t ht
  have hok := fileOK hth
  unfold FileOK at hok
  obtain ⟨tk, i, pc, cur, names, noList, crashed, file⟩ := t
  obtain ⟨h0, hd⟩ := hd
  cases pc with
  | dump ps n => exact .inl hok.1
  | trunc ps n => exact .inr hd.1
  | _ => exact .inr hd

/-! ## C82 -/

/-- The main thread has died when it tried to load a file at the very moment when its thread had truncated
it and had not yet written it again. -/
def MetWrite (iv : Option Nat) (s₀ : SJb) (h : List SEv) : Prop :=
  ∃ (a b : List SEv) (sa : SJb) (k : Nat) (t : Thr) (ps : List Nat) (n : Nxt), h = a ++ .died :: b ∧
    SHist iv s₀ a sa ∧ sa.jb.thrs[k]? = some t ∧ t.file = .broken ∧ t.pc = .dump ps n

theorem starts_app (a b : List Ev) : starts (a ++ b) = starts a ++ starts b := by
  simp [starts, List.filterMap_append]

/-- **C82** (`_partial`: unless the main thread meets a file that is being written, `C82_refuted`):
with or without snapshots, the job behaves as described in `Verif/JobThread.lean`; and the main thread
dies only on a file that is being written. -/
theorem C82_undisturbed_partial {tss : List (List Task)} {t₀ : Nat} {iv : Option Nat} {h : List SEv} {s : SJb}
    (hh : SHist iv (SJb.init tss t₀) h s) :
    Hist (Jb.init tss) (jbEvs h) s.jb ∧
    (s.pc = .dead → MetWrite iv (SJb.init tss t₀) h) := by
  refine ⟨shist_jb hh, ?_⟩
  induction hh with
  | init => intro h; cases h
  | @step h s s' e a hh ha ih =>
    intro hp
    have keep : s.pc = .dead → MetWrite iv (SJb.init tss t₀) (h ++ [e]) := fun h0 => by
      obtain ⟨A, b, sa, k, t, ps, n, h1, h2⟩ := ih h0
      exact ⟨A, b ++ [e], sa, k, t, ps, n, by simp [h1], h2⟩
    cases a with
    | thr k c =>
      simp only [sact] at ha
      cases hm : act s.jb (.thr k c) with
      | none => rw [hm] at ha; cases ha
      | some p => rw [hm] at ha; cases ha; exact keep hp
    | main now order =>
      simp only [sact] at ha
      cases hpc : s.pc with
      | top =>
        simp only [smain, hpc] at ha
        cases iv with
        | none => cases ha; cases hp
        | some i =>
          simp only at ha
          split at ha
          · split at ha
            · cases ha; cases hp
            · cases ha
          · cases ha; cases hp
      | read t todo acc =>
        cases todo with
        | nil => simp only [smain, hpc] at ha; cases ha; cases hp
        | cons k todo =>
          simp only [smain, hpc] at ha
          split at ha
          · cases ha; cases hp
          · next hf =>
            obtain ⟨-, j2, -⟩ := (cont hh).acc t _ acc hpc
            obtain ⟨t', ht', hd, -⟩ := j2 k (by simp)
            obtain ⟨ts, -, hth⟩ := (hist_thr (shist_jb hh)).2 k t' ht'
            cases ha
            rw [ht'] at hf
            have hb : t'.file = .broken := by
              cases hx : t'.file with
              | absent => exact absurd hx hd
              | broken => rfl
              | data ps => exact absurd (by simp [hx]) (hf ps)
            have hok := fileOK hth
            unfold FileOK at hok
            split at hok
            · exact absurd hb hok.1
            · exact absurd hb hok.1
            · next ps n hpc => exact ⟨h, [], s, k, t', ps, n, rfl, hh, ht', hb, hpc⟩
            · exact absurd hb hok.1
      | loop =>
        simp only [smain, hpc] at ha
        cases hm : mstep s.jb with
        | none => rw [hm] at ha; cases ha
        | some p =>
          rw [hm] at ha; cases ha
          simp only at hp
          split at hp <;> cases hp
      | dead => exact keep hpc

/-- The second task of the first component is awaited by the second one. -/
def tNamed : Task := { role := "x", technique := "t", taskName := some "go", body := 2 }

/-- **C82** is violated: a snapshot that meets a file being written ends the main loop.  Then, however
the job continues, its end is never noticed, and a task that waits for another one is never started. -/
theorem C82_refuted : ∃ h s, SHist (some 5) (SJb.init [[task "y" 1, tNamed], [tWait]] 0) h s ∧
    ∀ h' s', SHist (some 5) s h' s' →
      (∀ c, .ended c ∉ jbEvs (h ++ h')) ∧ starts (proj 1 (jbEvs (h ++ h'))) = [] := by
  let as := steps (goes 1 2) ++ steps (begins 0 (task "y" 1)) ++ fetches 0 [1, 2] 1 ++ [.main 6 [0], .main 6 []]
  have hr : ∃ p, srun (some 5) (SJb.init [[task "y" 1, tNamed], [tWait]] 0) as = some p ∧
      (∀ e ∈ jbEvs p.2, ∀ c, e ≠ .ended c) ∧ starts (proj 1 (jbEvs p.2)) = [] ∧ p.1.pc = .dead ∧
      p.1.jb.thrs[1]? = some { tasks := [tWait], i := 0, pc := .hold, current := some tWait } :=
    ⟨_, rfl, by simp [jbEvs], rfl, rfl, rfl⟩
  obtain ⟨⟨s, es⟩, hr, h1, h2, h3, h4⟩ := hr
  simp only at h1 h2 h3 h4
  refine ⟨es, s, by simpa using srun_hist .init hr, ?_⟩
  intro h' s' hc
  have key : s'.pc = .dead ∧ s'.jb.thrs[1]? = some { tasks := [tWait], i := 0, pc := .hold, current := some tWait } ∧
      (∀ e ∈ jbEvs h', ∀ c, e ≠ .ended c) ∧ starts (proj 1 (jbEvs h')) = [] := by
    induction hc with
    | init => exact ⟨h3, h4, by simp [jbEvs], rfl⟩
    | @step h' s₁ s₂ e a _ ha ih =>
      obtain ⟨j1, j2, j3, j4⟩ := ih
      cases a with
      | main now order => simp only [sact, smain, j1] at ha; cases ha
      | thr k c =>
        simp only [sact] at ha
        cases hm : act s₁.jb (.thr k c) with
        | none => rw [hm] at ha; cases ha
        | some p =>
          rw [hm] at ha
          cases ha
          simp only [act] at hm
          cases ht : s₁.jb.thrs[k]? with
          | none => rw [ht] at hm; cases hm
          | some t =>
            rw [ht] at hm
            simp only at hm
            cases hst : tstep t c with
            | none => rw [hst] at hm; cases hm
            | some q =>
              rw [hst] at hm
              cases hm
              have hev : ∀ e ∈ jbEvs (h' ++ [.jb (.thr k q.2)]), ∀ c, e ≠ .ended c := by
                intro e he c
                rw [jbEvs_append] at he
                rcases List.mem_append.mp he with he | he
                · exact j3 e he c
                · cases List.mem_singleton.mp he
                  simp
              have hl : 1 < s₁.jb.thrs.length := (List.getElem?_eq_some_iff.mp j2).1
              by_cases hk : k = 1
              · subst hk
                rw [j2] at ht
                cases ht
                cases hst
                refine ⟨j1, by simp [List.getElem?_set_self hl], hev, ?_⟩
                rw [jbEvs_append]
                show starts (proj 1 (jbEvs h' ++ [.thr 1 .tau])) = []
                rw [proj_snoc, starts_app, j4]
                rfl
              · refine ⟨j1, by simp [List.getElem?_set_ne hk, j2], hev, ?_⟩
                rw [jbEvs_append]
                show starts (proj 1 (jbEvs h' ++ [.thr k q.2])) = []
                rw [proj_snoc, proj_thr_ne hk, List.append_nil]
                exact j4
  obtain ⟨-, -, k3, k4⟩ := key
  refine ⟨?_, ?_⟩
  · intro c hc
    rw [jbEvs_append] at hc
    rcases List.mem_append.mp hc with hc | hc
    · exact h1 _ hc c rfl
    · exact k3 _ hc c rfl
  · rw [jbEvs_append, show proj 1 (jbEvs es ++ jbEvs h') = proj 1 (jbEvs es) ++ proj 1 (jbEvs h') by
      simp [proj, List.filterMap_append], starts_app, h2, k4]
    rfl

end Tomato.Props
