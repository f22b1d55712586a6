import Verif.Sql
import Mathlib.Data.List.Infix
import Verif.Props.KetchupExact
import Verif.DriverMgr
import Verif.Pipelines

/-!
# Lemmas about the SQL texts of `Verif/Sql.lean`
-/

namespace Tomato.Sql

open Tomato.Props (doubled)

/-! ## Reading texts -/

theorem read_append (l : Lex) (a b : List Char) : l.read (a ++ b) = (l.read a).read b :=
  List.foldl_append

theorem read_doubled (T : List Tok) (k : Nat) (cs t : List Char) :
    Lex.read ⟨T, k, .str cs⟩ (doubled t) = ⟨T, k, .str (cs ++ t)⟩ := by
  induction t generalizing cs with
  | nil => simp [doubled, Lex.read]
  | cons c t ih =>
    have e : doubled (c :: t) = (if c = '\'' then ['\'', '\''] else [c]) ++ doubled t := by
      simp [doubled]
    rw [e, read_append]
    by_cases hc : c = '\''
    · subst hc
      have : Lex.read ⟨T, k, .str cs⟩ ['\'', '\''] = ⟨T, k, .str (cs ++ ['\''])⟩ := by
        simp [Lex.read, Lex.step]
      simp only [if_true, this, ih]
      simp
    · have : Lex.read ⟨T, k, .str cs⟩ [c] = ⟨T, k, .str (cs ++ [c])⟩ := by
        simp [Lex.read, Lex.step, hc]
      simp only [if_neg hc, this, ih]
      simp

theorem doubled_plain {t : List Char} (h : '\'' ∉ t) : doubled t = t := by
  induction t with
  | nil => rfl
  | cons c t ih =>
    simp only [List.mem_cons, not_or] at h
    have e : doubled (c :: t) = (if c = '\'' then ['\'', '\''] else [c]) ++ doubled t := by
      simp [doubled]
    rw [e, ih h.2, if_neg (fun e => h.1 e.symm)]
    rfl

/-- A text ending in a literal: what has been pasted between the quotes is the literal, if the
quotes in it are doubled. -/
theorem scan_literal {pre n : String} {t : List Char} {T : List Tok} {k : Nat}
    (hp : Lex.read {} pre.toList = ⟨T, k, .str []⟩) (hn : n.toList = doubled t) :
    scan (pre ++ n ++ "';") = .tokens (T.reverse ++ [.str (String.ofList t), .sym ';']) k := by
  have h3 : "';".toList = ['\'', ';'] := by decide
  unfold scan
  rw [String.toList_append, String.toList_append, read_append, read_append, hp, hn, read_doubled, h3]
  have : Lex.read ⟨T, k, .str ([] ++ t)⟩ ['\'', ';'] =
      ⟨.sym ';' :: .str (String.ofList t) :: T, k, .start⟩ := by
    simp [Lex.read, Lex.step, Lex.push, Lex.fresh, wordChar]
  rw [this]
  simp [Lex.finish]

/-- A single dash does not begin a comment, and there are no other kinds of quotes. -/
def Tame (cs : List Char) : Prop :=
  (∀ c ∈ cs, c ≠ '"' ∧ c ≠ '[' ∧ c ≠ '`' ∧ c ≠ '/') ∧ ¬ ['-', '-'] <:+: cs

instance (cs : List Char) : Decidable (Tame cs) := by unfold Tame; infer_instance

/-- The tokeniser is in a literal. -/
def Mode.inside : Mode → Bool
  | .str _ => true
  | _ => false

/-- The tokeniser is not in a literal, comment or unknown text. -/
def Mode.between : Mode → Bool
  | .start | .word _ | .digits _ | .quote _ | .dash => true
  | _ => false

theorem fresh_quote (l : Lex) : (l.fresh '\'').mode = .str [] := by
  simp [Lex.fresh, wordChar]

theorem fresh_between (l : Lex) {c : Char} (hc : c ≠ '\'')
    (ht : c ≠ '"' ∧ c ≠ '[' ∧ c ≠ '`' ∧ c ≠ '/') :
    (l.fresh c).mode.between = true ∧ ((l.fresh c).mode = .dash → c = '-') := by
  unfold Lex.fresh
  split
  · simp [Mode.between]
  · split
    · simp [Mode.between]
    · split
      · simp [Mode.between]
      · split
        · simp_all [Mode.between]
        · split
          · simp [Mode.between]
          · rw [if_neg (by simp_all)]
            simp [Lex.push, Mode.between]

/-- A quote changes between inside and outside of a literal, everything else does not. -/
theorem step_parity (l : Lex) (c : Char) (ht : c ≠ '"' ∧ c ≠ '[' ∧ c ≠ '`' ∧ c ≠ '/')
    (hd : l.mode = .dash → c ≠ '-') (hm : l.mode.inside = true ∨ l.mode.between = true) :
    (c = '\'' → l.mode.inside = true → (l.step c).mode.between = true ∧ (l.step c).mode ≠ .dash) ∧
    (c = '\'' → l.mode.between = true → (l.step c).mode.inside = true) ∧
    (c ≠ '\'' → l.mode.inside = true → (l.step c).mode.inside = true) ∧
    (c ≠ '\'' → l.mode.between = true → (l.step c).mode.between = true ∧
      ((l.step c).mode = .dash → c = '-')) := by
  unfold Lex.step
  cases hmode : l.mode with
  | start =>
    refine ⟨fun _ h => by simp [Mode.inside] at h, fun e _ => ?_, fun _ h => by simp [Mode.inside] at h,
      fun hc _ => fresh_between l hc ht⟩
    subst e
    simp [fresh_quote, Mode.inside]
  | word cs =>
    refine ⟨fun _ h => by simp [Mode.inside] at h, fun e _ => ?_, fun _ h => by simp [Mode.inside] at h,
      fun hc _ => ?_⟩
    · subst e
      have : wordChar '\'' = false := by decide
      simp [this, fresh_quote, Mode.inside]
    · by_cases hw : wordChar c = true
      · simp [hw, Mode.between]
      · simp only [hw]
        exact fresh_between _ hc ht
  | digits cs =>
    refine ⟨fun _ h => by simp [Mode.inside] at h, fun e _ => ?_, fun _ h => by simp [Mode.inside] at h,
      fun hc _ => ?_⟩
    · subst e
      have : Char.isDigit '\'' = false := by decide
      simp [this, fresh_quote, Mode.inside]
    · by_cases hw : c.isDigit = true
      · simp [hw, Mode.between]
      · simp only [hw]
        exact fresh_between _ hc ht
  | str cs =>
    refine ⟨fun e _ => ?_, fun _ h => by simp [Mode.between] at h, fun hc _ => ?_,
      fun _ h => by simp [Mode.between] at h⟩
    · subst e
      simp [Mode.between]
    · simp [hc, Mode.inside]
  | quote cs =>
    refine ⟨fun _ h => by simp [Mode.inside] at h, fun e _ => ?_, fun _ h => by simp [Mode.inside] at h,
      fun hc _ => ?_⟩
    · subst e
      simp [Mode.inside]
    · simp only [if_neg hc]
      exact fresh_between _ hc ht
  | dash =>
    have hc := hd hmode
    refine ⟨fun _ h => by simp [Mode.inside] at h, fun e _ => ?_, fun _ h => by simp [Mode.inside] at h,
      fun hc' _ => ?_⟩
    · subst e
      simp [fresh_quote, Mode.inside]
    · simp only [if_neg hc]
      exact fresh_between _ hc' ht
  | comment => rw [hmode] at hm; simp [Mode.inside, Mode.between] at hm
  | outside => rw [hmode] at hm; simp [Mode.inside, Mode.between] at hm

/-- After a tame text the tokeniser is in a literal exactly if there is an even number of quotes (when it
has been in one before). -/
theorem read_parity (cs : List Char) (l : Lex) (ht : Tame cs)
    (hd : l.mode = .dash → cs.head? ≠ some '-') :
    (l.mode.inside = true → cs.count '\'' % 2 = 0 → (l.read cs).mode.inside = true) ∧
    (l.mode.inside = true → cs.count '\'' % 2 = 1 → (l.read cs).mode.between = true) ∧
    (l.mode.between = true → cs.count '\'' % 2 = 0 → (l.read cs).mode.between = true) ∧
    (l.mode.between = true → cs.count '\'' % 2 = 1 → (l.read cs).mode.inside = true) := by
  induction cs generalizing l with
  | nil => simp [Lex.read]
  | cons c cs ih =>
    have ht' : Tame cs := ⟨fun x hx => ht.1 x (List.mem_cons_of_mem _ hx),
      fun h => ht.2 (h.trans (List.suffix_cons c cs).isInfix)⟩
    have hq := ht.1 c List.mem_cons_self
    have hstep := fun hm => step_parity l c hq (fun h e => hd h (by simp [e])) hm
    have hr : l.read (c :: cs) = (l.step c).read cs := rfl
    rw [hr]
    have hdash : c = '-' → cs.head? ≠ some '-' := by
      intro e h
      apply ht.2
      cases cs with
      | nil => simp at h
      | cons d ds =>
        simp only [List.head?_cons, Option.some.injEq] at h
        subst h e
        exact ⟨[], ds, rfl⟩
    by_cases hc : c = '\''
    · have hcount : (c :: cs).count '\'' = cs.count '\'' + 1 := by subst hc; simp
      rw [hcount]
      refine ⟨fun hi h => ?_, fun hi h => ?_, fun hb h => ?_, fun hb h => ?_⟩
      · have := (hstep (.inl hi)).1 hc hi
        exact (ih (l.step c) ht' (fun h => absurd h this.2)).2.2.2 this.1 (by omega)
      · have := (hstep (.inl hi)).1 hc hi
        exact (ih (l.step c) ht' (fun h => absurd h this.2)).2.2.1 this.1 (by omega)
      · have := (hstep (.inr hb)).2.1 hc hb
        exact (ih (l.step c) ht' (fun h => by rw [h] at this; simp [Mode.inside] at this)).2.1 this
          (by omega)
      · have := (hstep (.inr hb)).2.1 hc hb
        exact (ih (l.step c) ht' (fun h => by rw [h] at this; simp [Mode.inside] at this)).1 this
          (by omega)
    · have hcount : (c :: cs).count '\'' = cs.count '\'' := by
        rw [List.count_cons_of_ne (fun e => hc e)]
      rw [hcount]
      refine ⟨fun hi h => ?_, fun hi h => ?_, fun hb h => ?_, fun hb h => ?_⟩
      · have := (hstep (.inl hi)).2.2.1 hc hi
        exact (ih (l.step c) ht' (fun h => by rw [h] at this; simp [Mode.inside] at this)).1 this h
      · have := (hstep (.inl hi)).2.2.1 hc hi
        exact (ih (l.step c) ht' (fun h => by rw [h] at this; simp [Mode.inside] at this)).2.1 this h
      · have := (hstep (.inr hb)).2.2.2 hc hb
        exact (ih (l.step c) ht' (fun h => hdash (this.2 h))).2.2.1 this.1 h
      · have := (hstep (.inr hb)).2.2.2 hc hb
        exact (ih (l.step c) ht' (fun h => hdash (this.2 h))).2.2.2 this.1 h

theorem finish_inside {l : Lex} (h : l.mode.inside = true) : l.finish = .unclosed := by
  unfold Lex.finish
  cases hm : l.mode <;> simp [hm, Mode.inside] at h ⊢

/-- A text ending in a literal with an odd number of quotes in it is not closed. -/
theorem scan_odd {pre n : String} {T : List Tok} {k : Nat}
    (hp : Lex.read {} pre.toList = ⟨T, k, .str []⟩) (ht : Tame n.toList)
    (hn : n.toList.count '\'' % 2 = 1) (post : String) (hpost : post.toList.count '\'' % 2 = 1)
    (htp : Tame post.toList) (hdash : post.toList.head? ≠ some '-') :
    scan (pre ++ n ++ post) = .unclosed := by
  unfold scan
  rw [String.toList_append, String.toList_append, read_append, read_append, hp]
  have h1 := (read_parity n.toList ⟨T, k, .str []⟩ ht (by simp)).2.1 (by simp [Mode.inside]) hn
  exact finish_inside ((read_parity post.toList _ htp (fun _ => hdash)).2.2.2 h1 hpost)

/-! ## The statements of pipdb.py and drvdb.py -/

/-- The rows with a name get a new value in a column. -/
def setNamed (n : String) (k : String) (v : Val) (rs : List Row) : List Row :=
  rs.map (fun r => if Dict.get? r "name" = some (.text n) then Dict.set r k v else r)

theorem holds_name (n : String) (ps : List Val) (r : Row) :
    (Cond.eq (.col "name") (.lit (.text n))).holds ps r =
      decide (Dict.get? r "name" = some (.text n)) := by
  unfold Cond.holds
  rw [decide_eq_decide]
  simp only [Cond.eval, Opd.eval]
  cases h : Dict.get? r "name" with
  | none => simp [valEq]
  | some v => cases v <;> simp [valEq]

theorem execute_updatePip (n : String) (t : List Char) (hn : n.toList = doubled t) (pp : PipParam)
    (db : Db) :
    execute (updatePipText n (pipParam pp).1) [(pipParam pp).2] db =
      .done [] { db with pipelines := (setNamed (String.ofList t) (pipParam pp).1
        (pipParam pp).2 db.pipelines) } := by
  have key : ∀ k v, k ∈ ["ready", "jobid", "sampleid"] →
      Lex.read {} ("UPDATE pipelines SET " ++ k ++ " = ? WHERE name = '").toList =
        ⟨[.sym '=', .name "name", .kw .whereK, .par 0, .sym '=', .name k, .kw .setK,
          .name "pipelines", .kw .updateK], 1, .str []⟩ →
      execute (updatePipText n k) [v] db =
        .done [] { db with pipelines := setNamed (String.ofList t) k v db.pipelines } := by
    intro k v hk hp
    unfold execute updatePipText
    rw [scan_literal hp hn]
    have hparse : parse ([Tok.sym '=', .name "name", .kw .whereK, .par 0, .sym '=', .name k,
        .kw .setK, .name "pipelines", .kw .updateK].reverse ++ [.str (String.ofList t), .sym ';']) =
        some (.update "pipelines" k (.par 0) (.eq (.col "name") (.lit (.text (String.ofList t))))) := rfl
    have hknown : (Stmt.update "pipelines" k (.par 0)
        (.eq (.col "name") (.lit (.text (String.ofList t))))).known = true := by
      simp only [List.mem_cons, List.not_mem_nil, or_false] at hk
      rcases hk with rfl | rfl | rfl <;> rfl
    simp only [hparse, hknown]
    simp only [Stmt.run, holds_name, Opd.eval, Db.rows, Db.setRows, setNamed]
    simp
  cases pp with
  | ready v => exact key "ready" _ (by decide) (by decide +kernel)
  | jobid v => exact key "jobid" _ (by decide) (by decide +kernel)
  | sampleid v => exact key "sampleid" _ (by decide) (by decide +kernel)

theorem execute_updateDrv (n : String) (t : List Char) (hn : n.toList = doubled t) (dp : DrvParam)
    (db : Db) :
    execute (updateDrvText n (drvParam dp).1) [(drvParam dp).2] db =
      .done [] { db with drivers := (setNamed (String.ofList t) (drvParam dp).1
        (drvParam dp).2 db.drivers) } := by
  have key : ∀ k v, k ∈ ["port", "pid", "version", "spawn_time", "spawn_count", "heartbeat_time"] →
      Lex.read {} ("UPDATE drivers SET " ++ k ++ " = ? WHERE name = '").toList =
        ⟨[.sym '=', .name "name", .kw .whereK, .par 0, .sym '=', .name k, .kw .setK,
          .name "drivers", .kw .updateK], 1, .str []⟩ →
      execute (updateDrvText n k) [v] db =
        .done [] { db with drivers := setNamed (String.ofList t) k v db.drivers } := by
    intro k v hk hp
    unfold execute updateDrvText
    rw [scan_literal hp hn]
    have hparse : parse ([Tok.sym '=', .name "name", .kw .whereK, .par 0, .sym '=', .name k,
        .kw .setK, .name "drivers", .kw .updateK].reverse ++ [.str (String.ofList t), .sym ';']) =
        some (.update "drivers" k (.par 0) (.eq (.col "name") (.lit (.text (String.ofList t))))) := rfl
    have hknown : (Stmt.update "drivers" k (.par 0)
        (.eq (.col "name") (.lit (.text (String.ofList t))))).known = true := by
      simp only [List.mem_cons, List.not_mem_nil, or_false] at hk
      rcases hk with rfl | rfl | rfl | rfl | rfl | rfl <;> rfl
    simp only [hparse, hknown]
    simp only [Stmt.run, holds_name, Opd.eval, Db.rows, Db.setRows, setNamed]
    simp
  cases dp with
  | port v => exact key "port" _ (by decide) (by decide +kernel)
  | pid v => exact key "pid" _ (by decide) (by decide +kernel)
  | version v => exact key "version" _ (by decide) (by decide +kernel)
  | spawnTime v => exact key "spawn_time" _ (by decide) (by decide +kernel)
  | spawnCount v => exact key "spawn_count" _ (by decide) (by decide +kernel)
  | heartbeatTime v => exact key "heartbeat_time" _ (by decide) (by decide +kernel)

theorem setNamed_pips (n : String) (pp : PipParam) (l : List PipState) :
    setNamed n (pipParam pp).1 (pipParam pp).2 (l.map pipRow) =
      (l.map (fun p => if p.name = n then pp.apply p else p)).map pipRow := by
  simp only [setNamed, List.map_map]
  apply List.map_congr_left
  intro p _
  have hname : Dict.get? (pipRow p) "name" = some (.text p.name) := rfl
  simp only [Function.comp, hname, Option.some.injEq, Val.text.injEq]
  split
  · cases pp <;> rfl
  · rfl

theorem setNamed_drvs (n : String) (dp : DrvParam) (l : List DrvState) :
    setNamed n (drvParam dp).1 (drvParam dp).2 (l.map drvRow) =
      (l.map (fun d => if d.name = n then dp.apply d else d)).map drvRow := by
  simp only [setNamed, List.map_map]
  apply List.map_congr_left
  intro d _
  have hname : Dict.get? (drvRow d) "name" = some (.text d.name) := rfl
  simp only [Function.comp, hname, Option.some.injEq, Val.text.injEq]
  split
  · cases dp <;> rfl
  · rfl

theorem updatePip_rows (n : String) (t : List Char) (hn : n.toList = doubled t) (ps : List PipParam)
    (db : Db) (l : List PipState) (hl : db.pipelines = l.map pipRow) :
    updatePip n ps db = .done [] { db with pipelines :=
      (l.map (fun p => if p.name = String.ofList t then applyPip p ps else p)).map pipRow } := by
  unfold updatePip
  induction ps generalizing db l with
  | nil =>
    simp [executeAll, applyPip, ← hl]
  | cons pp ps ih =>
    simp only [List.map_cons, executeAll, execute_updatePip n t hn]
    rw [hl, setNamed_pips, ih _ _ rfl]
    simp only [List.map_map, Out.done.injEq, true_and, Db.mk.injEq, and_true]
    apply List.map_congr_left
    intro p _
    have hname : (pp.apply p).name = p.name := by cases pp <;> rfl
    simp only [Function.comp]
    by_cases h : p.name = String.ofList t
    · simp [h, hname, applyPip]
    · simp [h]

theorem updateDrv_rows (n : String) (t : List Char) (hn : n.toList = doubled t) (ps : List DrvParam)
    (db : Db) (l : List DrvState) (hl : db.drivers = l.map drvRow) :
    updateDrv n ps db = .done [] { db with drivers :=
      (l.map (fun d => if d.name = String.ofList t then applyDrv d ps else d)).map drvRow } := by
  unfold updateDrv
  induction ps generalizing db l with
  | nil =>
    simp [executeAll, applyDrv, ← hl]
  | cons pp ps ih =>
    simp only [List.map_cons, executeAll, execute_updateDrv n t hn]
    rw [hl, setNamed_drvs, ih _ _ rfl]
    simp only [List.map_map, Out.done.injEq, true_and, Db.mk.injEq]
    apply List.map_congr_left
    intro d _
    have hname : (pp.apply d).name = d.name := by cases pp <;> rfl
    simp only [Function.comp]
    by_cases h : d.name = String.ofList t
    · simp [h, hname, applyDrv]
    · simp [h]

/-! ## Numbers in texts -/

theorem read_digits (T : List Tok) (k : Nat) (cs ds : List Char) (h : ∀ c ∈ ds, c.isDigit = true) :
    Lex.read ⟨T, k, .digits cs⟩ ds = ⟨T, k, .digits (cs ++ ds)⟩ := by
  induction ds generalizing cs with
  | nil => simp [Lex.read]
  | cons d ds ih =>
    have hd := h d List.mem_cons_self
    have : Lex.read ⟨T, k, .digits cs⟩ (d :: ds) = Lex.read ⟨T, k, .digits (cs ++ [d])⟩ ds := by
      simp [Lex.read, Lex.step, hd]
    rw [this, ih _ (fun c hc => h c (List.mem_cons_of_mem _ hc))]
    simp

theorem digit_not_space {c : Char} (h : c.isDigit = true) : c.isWhitespace = false := by
  simp only [Char.isDigit, Bool.and_eq_true, decide_eq_true_eq] at h
  have h1 : c ≠ ' ' := by rintro rfl; exact absurd h (by decide)
  have h2 : c ≠ '\t' := by rintro rfl; exact absurd h (by decide)
  have h3 : c ≠ '\r' := by rintro rfl; exact absurd h (by decide)
  have h4 : c ≠ '\n' := by rintro rfl; exact absurd h (by decide)
  simp [Char.isWhitespace, h1, h2, h3, h4]

theorem read_nat (T : List Tok) (k n : Nat) :
    Lex.read ⟨T, k, .start⟩ (toString n).toList = ⟨T, k, .digits (Nat.toDigits 10 n)⟩ := by
  have hd : ∀ c ∈ Nat.toDigits 10 n, c.isDigit = true :=
    fun c hc => Nat.isDigit_of_mem_toDigits (by decide) (by decide) hc
  have e : (toString n).toList = Nat.toDigits 10 n := Nat.toList_repr
  rw [e]
  cases hl : Nat.toDigits 10 n with
  | nil => exact absurd hl Nat.toDigits_ne_nil
  | cons d ds =>
    rw [hl] at hd
    have h0 := hd d List.mem_cons_self
    have : Lex.read ⟨T, k, .start⟩ (d :: ds) = Lex.read ⟨T, k, .digits [d]⟩ ds := by
      simp [Lex.read, Lex.step, Lex.fresh, h0, digit_not_space h0]
    rw [this, read_digits _ _ _ _ (fun c hc => hd c (List.mem_cons_of_mem _ hc))]
    simp

/-- A number followed by a character that ends it. -/
theorem read_nat_sym (T : List Tok) (k n : Nat) (c : Char) (hc : c = ';' ∨ c = ',' ∨ c = ')') :
    Lex.read ⟨T, k, .digits (Nat.toDigits 10 n)⟩ [c] = ⟨.sym c :: .num n :: T, k, .start⟩ := by
  rcases hc with rfl | rfl | rfl <;>
    simp [Lex.read, Lex.step, Lex.fresh, Lex.push, wordChar, Nat.ofDigitChars_ten_toDigits]

/-- The tokens of `1, 2, 3)`. -/
def idToks : List Nat → List Tok
  | [] => [.sym ')']
  | [n] => [.num n, .sym ')']
  | n :: ns => .num n :: .sym ',' :: idToks ns

theorem read_ids (T : List Tok) (k : Nat) (ids : List Nat) :
    Lex.read ⟨T, k, .start⟩ (", ".intercalate (ids.map toString) ++ ")").toList =
      ⟨(idToks ids).reverse ++ T, k, .start⟩ := by
  induction ids generalizing T with
  | nil =>
    have : (", ".intercalate (([] : List Nat).map toString) ++ ")").toList = [')'] := by decide
    rw [this]
    simp [Lex.read, Lex.step, Lex.fresh, Lex.push, wordChar, idToks]
  | cons n ns ih =>
    cases ns with
    | nil =>
      rw [List.map_cons, List.map_nil, String.intercalate_singleton, String.toList_append, read_append,
        read_nat]
      have : ")".toList = [')'] := by decide
      rw [this, read_nat_sym _ _ _ _ (by simp)]
      simp [idToks]
    | cons m ms =>
      have e : (", ".intercalate ((n :: m :: ms).map toString) ++ ")").toList =
          (toString n).toList ++ ([','] ++ ([' '] ++
            (", ".intercalate ((m :: ms).map toString) ++ ")").toList)) := by
        have : ", ".toList = [',', ' '] := by decide
        simp only [List.map_cons, String.intercalate_cons_cons, String.toList_append, this]
        simp
      rw [e, read_append, read_append, read_append, read_nat, read_nat_sym _ _ _ _ (by simp)]
      have : Lex.read ⟨.sym ',' :: .num n :: T, k, .start⟩ [' '] = ⟨.sym ',' :: .num n :: T, k, .start⟩ := by
        simp [Lex.read, Lex.step, Lex.fresh]
      rw [this, ih]
      simp [idToks]

theorem inList_ids (ids : List Nat) (r : List Tok) :
    inList (idToks ids ++ r) = some (ids.map (fun n => .lit (.int n)), r) := by
  have key : ∀ (n : Nat) (ns : List Nat),
      opds (idToks (n :: ns) ++ r) = some ((n :: ns).map (fun n => Opd.lit (.int n)), r) := by
    intro n ns
    induction ns generalizing n with
    | nil => simp [idToks, opds, opd]
    | cons m ms ih => simp [idToks, opds, opd, ih]
  cases ids with
  | nil => simp [idToks, inList]
  | cons n ns =>
    rw [← key n ns]
    cases ns <;> rfl

/-! ## The statements of jobdb.py -/

theorem execute_updateJob (f : Stamp) (id : Nat) (jp : JobParam) (db : Db) :
    execute (updateJobText id (jobParam f jp).1) [(jobParam f jp).2] db =
      .done [] { db with queue := (db.queue.map (fun r =>
        if Dict.get? r "id" = some (.int id) then Dict.set r (jobParam f jp).1 (jobParam f jp).2
        else r)) } := by
  have key : ∀ k v, k ∈ queueCols →
      Lex.read {} ("UPDATE queue SET " ++ k ++ " = ? WHERE id = ").toList =
        ⟨[.sym '=', .name "id", .kw .whereK, .par 0, .sym '=', .name k, .kw .setK,
          .name "queue", .kw .updateK], 1, .start⟩ →
      execute (updateJobText id k) [v] db =
        .done [] { db with queue := (db.queue.map (fun r =>
          if Dict.get? r "id" = some (.int id) then Dict.set r k v else r)) } := by
    intro k v hk hp
    have h3 : ";".toList = [';'] := by decide
    have hs : scan (updateJobText id k) = .tokens ([.kw .updateK, .name "queue", .kw .setK, .name k,
        .sym '=', .par 0, .kw .whereK, .name "id", .sym '=', .num id, .sym ';']) 1 := by
      unfold scan updateJobText
      rw [String.toList_append, String.toList_append, read_append, read_append, hp, read_nat, h3,
        read_nat_sym _ _ _ _ (by simp)]
      rfl
    have hparse : parse [.kw .updateK, .name "queue", .kw .setK, .name k,
        .sym '=', .par 0, .kw .whereK, .name "id", .sym '=', .num id, .sym ';'] =
        some (.update "queue" k (.par 0) (.eq (.col "id") (.lit (.int id)))) := rfl
    have hknown : (Stmt.update "queue" k (.par 0) (.eq (.col "id") (.lit (.int id)))).known = true := by
      simp only [queueCols, List.mem_cons, List.not_mem_nil, or_false] at hk
      rcases hk with rfl | rfl | rfl | rfl | rfl | rfl | rfl | rfl | rfl | rfl | rfl | rfl <;> rfl
    have hholds : ∀ ps r, (Cond.eq (.col "id") (.lit (.int id))).holds ps r =
        decide (Dict.get? r "id" = some (.int id)) := by
      intro ps r
      unfold Cond.holds
      rw [decide_eq_decide]
      simp only [Cond.eval, Opd.eval]
      cases h : Dict.get? r "id" with
      | none => simp [valEq]
      | some v => cases v <;> simp [valEq]
    unfold execute
    simp only [hs, hparse, hknown]
    simp only [Stmt.run, hholds, Opd.eval, Db.rows, Db.setRows]
    simp
  cases jp with
  | payload v => exact key "payload" _ (by decide) (by decide +kernel)
  | jobname v => exact key "jobname" _ (by decide) (by decide +kernel)
  | submittedAt v => exact key "submitted_at" _ (by decide) (by decide +kernel)
  | pid v => exact key "pid" _ (by decide) (by decide +kernel)
  | status v => exact key "status" _ (by decide) (by decide +kernel)
  | launchedAt v => exact key "launched_at" _ (by decide) (by decide +kernel)
  | connectedAt v => exact key "connected_at" _ (by decide) (by decide +kernel)
  | completedAt v => exact key "completed_at" _ (by decide) (by decide +kernel)
  | jobpath v => exact key "jobpath" _ (by decide) (by decide +kernel)
  | respath v => exact key "respath" _ (by decide) (by decide +kernel)
  | snappath v => exact key "snappath" _ (by decide) (by decide +kernel)

theorem updateJob_rows (f : Stamp) (id : Nat) (ps : List JobParam) (db : Db) (l : List Job)
    (hl : db.queue = l.map (jobRow f)) :
    updateJob f id ps db = .done [] { db with queue :=
      (l.map (fun j => if j.id = id then applyJob j ps else j)).map (jobRow f) } := by
  unfold updateJob
  induction ps generalizing db l with
  | nil => simp [executeAll, applyJob, ← hl]
  | cons pp ps ih =>
    simp only [List.map_cons, executeAll, execute_updateJob]
    rw [ih _ (l.map (fun j => if j.id = id then pp.apply j else j))]
    · simp only [List.map_map, Out.done.injEq, true_and, Db.mk.injEq, and_true]
      apply List.map_congr_left
      intro j _
      have hid : (pp.apply j).id = j.id := by cases pp <;> rfl
      simp only [Function.comp]
      by_cases h : j.id = id
      · simp [h, hid, applyJob]
      · simp [h]
    · simp only [hl, List.map_map]
      apply List.map_congr_left
      intro j _
      have hid : Dict.get? (jobRow f j) "id" = some (.int j.id) := rfl
      simp only [Function.comp, hid, Option.some.injEq, Val.int.injEq]
      split
      · cases pp <;> rfl
      · rfl

/-! ## Reading rows -/

theorem pipOf_pipRow (p : PipState) : pipOf (pipRow p) = some p := by
  obtain ⟨n, r, j, s⟩ := p
  cases r <;> cases j <;> cases s <;> rfl

theorem drvOf_drvRow (d : DrvState) : drvOf (drvRow d) = some d := by
  obtain ⟨n, po, pi, v, a, b, c⟩ := d
  cases po <;> cases pi <;> cases v <;> rfl

theorem time?_of? (f : Stamp) (t : Option Nat) : f.time? (f.of? t) = some t := by
  cases t with
  | none => rfl
  | some t => simp [Stamp.time?, Stamp.of?, f.read_show]

theorem nat?_ofNat? (x : Option Nat) : nat? (ofNat? x) = some x := by cases x <;> rfl

theorem text?_ofText? (x : Option String) : text? (ofText? x) = some x := by cases x <;> rfl

theorem status!_text (s : JobStatus) : status! (.text (statusText s)) = some s := by
  cases s <;> decide

theorem jobOf_jobRow (f : Stamp) (j : Job) : jobOf f (jobRow f j) = some j := by
  have h0 : Dict.get? (jobRow f j) "id" = some (.int j.id) := rfl
  have h1 : Dict.get? (jobRow f j) "payload" = some (.blob j.payload) := rfl
  have h2 : Dict.get? (jobRow f j) "jobname" = some (ofText? j.jobname) := rfl
  have h3 : Dict.get? (jobRow f j) "pid" = some (ofNat? j.pid) := rfl
  have h4 : Dict.get? (jobRow f j) "status" = some (.text (statusText j.status)) := rfl
  have h5 : Dict.get? (jobRow f j) "submitted_at" = some (.text (f.show_ j.submittedAt)) := rfl
  have h6 : Dict.get? (jobRow f j) "launched_at" = some (f.of? j.launchedAt) := rfl
  have h7 : Dict.get? (jobRow f j) "connected_at" = some (f.of? j.connectedAt) := rfl
  have h8 : Dict.get? (jobRow f j) "completed_at" = some (f.of? j.completedAt) := rfl
  have h9 : Dict.get? (jobRow f j) "jobpath" = some (ofText? j.jobpath) := rfl
  have h10 : Dict.get? (jobRow f j) "respath" = some (ofText? j.respath) := rfl
  have h11 : Dict.get? (jobRow f j) "snappath" = some (ofText? j.snappath) := rfl
  have h12 : f.time? (.text (f.show_ j.submittedAt)) = some (some j.submittedAt) := by
    simp [Stamp.time?, f.read_show]
  simp only [jobOf, h0, h1, h2, h3, h4, h5, h6, h7, h8, h9, h10, h11, h12, Option.bind_eq_bind,
    Option.bind_some, nat!, payload!, nat?_ofNat?, text?_ofText?, status!_text, time?_of?]

theorem filterMap_rows {α : Type} {row : α → Row} {of : Row → Option α}
    (h : ∀ a, of (row a) = some a) (l : List α) : (l.map row).filterMap of = l := by
  induction l with
  | nil => rfl
  | cons a l ih => simp [h, ih]

theorem toWorld_ofWorld (f : Stamp) (w w' : World)
    (h : w' = { w with jobs := w'.jobs, jobSeq := w'.jobSeq, pips := w'.pips, drvs := w'.drvs }) :
    toWorld f w (ofWorld f w') = w' := by
  rw [h]
  simp [toWorld, ofWorld, filterMap_rows (jobOf_jobRow f), filterMap_rows pipOf_pipRow,
    filterMap_rows drvOf_drvRow]

end Tomato.Sql
