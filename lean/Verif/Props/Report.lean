import Verif.Report
import Verif.Props.CmdLine
import Mathlib.Data.List.Nodup

/-!
# C136: the programs report what the command replied
-/

namespace Tomato.Props.Reported
open Tomato Tomato.Args Tomato.CmdLine Tomato.Report Tomato.Props.Line

/-! ## Specification -/

/-- `t` is the report of the reply `r`. -/
def Reports {D : Type} (dump : Reply D → Except PyErr String) (yaml : Bool) (r : Reply D) (t : String) : Prop :=
  (yaml = true → dump r = .ok t) ∧
  (yaml = false → r.success = true → t = "Success: " ++ r.msg) ∧
  (yaml = false → r.success = false → t = "Failure: " ++ r.msg)

/-- YAML is asked for. -/
def asksYaml (int : Arg → Option Int) (items : List Item) : Bool :=
  match saidLast int "yaml" items with
  | some (.bool true) => true
  | _ => false

/-- The port which is meant. -/
def portOf (int : Arg → Option Int) (items : List Item) : Val := (saidLast int "port" items).getD (.int 1234)

/-- The timeout which is meant. -/
def timeoutOf (int : Arg → Option Int) (items : List Item) : Val := (saidLast int "timeout" items).getD (.int 3000)

def Event.isPrinted {D : Type} : Event D → Bool
  | .printed _ => true
  | _ => false

def Event.isCalled {D : Type} : Event D → Bool
  | .called _ _ _ _ => true
  | _ => false

/-! ## From the command line to the arguments -/

theorem parsed_of_called {int : Arg → Option Int} {up : Option Val → Option Val → Bool} {pr : Program}
    {args : List Arg} {f : Option Val} {ns : Ns} {lv : Int} (h : run int up pr args = .called f ns lv) :
    parsed int pr args = .ok (ns, lv) := by
  unfold run at h
  unfold parsed
  cases h1 : parseKnown int (subsOf int pr) top Ns.empty args with
  | error e => rw [h1] at h; cases h
  | ok r =>
    obtain ⟨n1, ex⟩ := r
    rw [h1] at h
    dsimp only at h ⊢
    cases h2 : parseKnown int noSub verbose n1 ex with
    | error e => rw [h2] at h; cases h
    | ok r =>
      obtain ⟨n2, ex2⟩ := r
      rw [h2] at h
      dsimp only at h ⊢
      split at h
      · cases h
      · injection h with _ h3 h4
        subst h3 h4
        rfl

theorem lastOf_mem {k : String} {v : Val} : ∀ {l : List (String × Val)}, lastOf k l = some v → (k, v) ∈ l
  | [], h => by cases h
  | (k', x) :: l, h => by
    simp only [lastOf] at h
    cases hl : lastOf k l with
    | some y =>
      rw [hl] at h
      simp only [Option.some_or, Option.some.injEq] at h
      subst h
      exact List.mem_cons_of_mem _ (lastOf_mem hl)
    | none =>
      rw [hl] at h
      simp only [Option.none_or] at h
      split at h
      · rename_i hk
        simp only [Option.some.injEq] at h
        subst hk h
        exact List.mem_cons_self
      · cases h

/-- Only the option `--yaml` is about YAML. -/
theorem yaml_kind {pr : Program} {path : List Arg} {p : Parser} (hc : (path, p) ∈ commands pr) {o : Opt}
    (ho : o ∈ p.opts) (hd : o.dest = "yaml") : o.kind = .setTrue := by
  have hn := (leaf hc).dests
  rw [List.append_assoc, List.nodup_append] at hn
  have := List.inj_on_of_nodup_map hn.1 ho (C127_named hc).2.2.2 hd
  rw [this]

theorem valueSays_yaml {int : Arg → Option Int} {pr : Program} {path : List Arg} {p : Parser}
    (hc : (path, p) ∈ commands pr) {o : Opt} {v : Arg} (hv : Valued int p.opts o v) {x : Val}
    (h : ("yaml", x) ∈ valueSays int o v) : False := by
  obtain ⟨ho, ty, y, hk, hr⟩ := hv
  simp only [valueSays, hk, hr, Option.map_some, Option.toList_some, List.mem_singleton, Prod.mk.injEq] at h
  have := yaml_kind hc ho h.1.symm
  rw [hk] at this
  cases this

theorem says_yaml {int : Arg → Option Int} {pr : Program} {path : List Arg} {p : Parser}
    (hc : (path, p) ∈ commands pr) {it : Item} (hi : it.Ok int p.opts) {x : Val}
    (h : ("yaml", x) ∈ it.says int) : x = .bool true := by
  cases it with
  | two o n v => exact (valueSays_yaml hc hi.1 h).elim
  | eq o n v => exact (valueSays_yaml hc hi.1 h).elim
  | flag o n => simp only [Item.says, List.mem_singleton, Prod.mk.injEq] at h; exact h.2
  | cluster fs t =>
    simp only [Item.says, List.mem_append, List.mem_map] at h
    rcases h with ⟨f, _, hf⟩ | h
    · simp only [Prod.mk.injEq] at hf
      exact hf.2.symm
    · cases t with
      | none => cases h
      | loud s => cases h
      | glued o c v => exact (valueSays_yaml hc hi.2.1.1 h).elim
      | equal o c v => exact (valueSays_yaml hc hi.2.1.1 h).elim
      | next o c v => exact (valueSays_yaml hc hi.2.1.1 h).elim
  | louder a => simp [Item.says] at h
  | quieter a => simp [Item.says] at h
  | both a => simp [Item.says] at h

theorem wantsYaml_eq {int : Arg → Option Int} {pr : Program} {path : List Arg} {p : Parser}
    (hc : (path, p) ∈ commands pr) {items : List Item} (hi : ∀ it ∈ items, it.Ok int p.opts) {ns : Ns}
    (h : ns "yaml" = some ((saidLast int "yaml" items).getD (.bool false))) :
    wantsYaml ns = .ok (asksYaml int items) := by
  unfold wantsYaml asksYaml
  rw [h]
  cases hl : saidLast int "yaml" items with
  | none => rfl
  | some v =>
    have hm := lastOf_mem hl
    rw [List.mem_flatMap] at hm
    obtain ⟨it, hit, hx⟩ := hm
    rw [says_yaml hc (hi it hit) hx]
    rfl

/-! ## What is printed -/

/-- The text of a report is the one of the specification, and there is none only if the dump fails. -/
theorem show_ok {D : Type} {dump : Reply D → Except PyErr String} {ns : Ns} {yaml : Bool}
    (hy : wantsYaml ns = .ok yaml) {r : Reply D} {t : String} (h : Reports dump yaml r t) :
    show' dump ns r = .ok t := by
  unfold show'
  rw [hy]
  cases yaml with
  | true => exact h.1 rfl
  | false =>
    cases hs : r.success with
    | true => rw [h.2.1 rfl hs]; simp
    | false => rw [h.2.2 rfl hs]; simp

theorem show_error {D : Type} {dump : Reply D → Except PyErr String} {ns : Ns}
    (hy : wantsYaml ns = .ok true) {r : Reply D} {e : PyErr} (h : dump r = .error e) :
    show' dump ns r = .error e := by
  unfold show'
  rw [hy]
  exact h

/-- A reply `r` is reported after `before`: one text, and the status is 0; if the reply cannot be written as YAML,
nothing is printed and the status is 1. -/
def Ends {D : Type} (dump : Reply D → Except PyErr String) (yaml : Bool) (before : List (Event D)) (r : Reply D)
    (out : Ended D) : Prop :=
  (∀ t, Reports dump yaml r t → out.events = before ++ [.printed t] ∧ out.status = 0) ∧
  (∀ e, yaml = true → dump r = .error e → out.events = before ∧ out.status = 1)

/-- The function `f` is called once with `ns`, `level` and `daemon`, and its reply is reported; if it raises, nothing
is printed and the status is 1. -/
def Answers {D : Type} (call : Val → Ns → Int → Option D → Except PyErr (Reply D))
    (dump : Reply D → Except PyErr String) (yaml : Bool) (before : List (Event D)) (f : Val) (ns : Ns) (level : Int)
    (daemon : Option D) (out : Ended D) : Prop :=
  (∀ r, call f ns level daemon = .ok r → Ends dump yaml (before ++ [.called f ns level daemon]) r out) ∧
  (∀ e, call f ns level daemon = .error e → out.events = before ++ [.called f ns level daemon] ∧ out.status = 1)

theorem finish_ends {D : Type} {dump : Reply D → Except PyErr String} {ns : Ns} {yaml : Bool}
    (hy : wantsYaml ns = .ok yaml) (before : List (Event D)) (r : Reply D) :
    Ends dump yaml before r (finish before (show' dump ns r)) := by
  refine ⟨fun t ht => ?_, fun e hyy he => ?_⟩
  · rw [show_ok hy ht]
    exact ⟨rfl, rfl⟩
  · subst hyy
    rw [show_error hy he]
    exact ⟨rfl, rfl⟩

theorem callFunc_answers {D : Type} {call : Val → Ns → Int → Option D → Except PyErr (Reply D)}
    {dump : Reply D → Except PyErr String} {ns : Ns} {yaml : Bool} (hy : wantsYaml ns = .ok yaml) {f : Val}
    (hf : ns "func" = some f) (before : List (Event D)) (lv : Int) (daemon : Option D) :
    Answers call dump yaml before f ns lv daemon (callFunc call dump before ns lv daemon) := by
  unfold callFunc
  rw [hf]
  refine ⟨fun r hr => ?_, fun e he => ?_⟩
  · dsimp only
    rw [hr]
    exact finish_ends hy _ r
  · dsimp only
    rw [he]
    exact ⟨rfl, rfl⟩

/-- For the command lines of C127: `tomato` calls the function of the subcommand with what the command line says and
reports its reply; `ketchup` and `passata` first ask the daemon of the given port, report its absence and call nothing,
or call the function with the daemon and report its reply. -/
theorem C136_partial {D : Type} (int : Arg → Option Int) (status : Option Val → Option Val → Except PyErr (Reply D))
    (call : Val → Ns → Int → Option D → Except PyErr (Reply D)) (dump : Reply D → Except PyErr String) {pr : Program}
    {path : List Arg} {p : Parser} (hc : (path, p) ∈ commands pr) {front pre post : List Item}
    (hfront : ∀ it ∈ front, it.Ok int []) (hpre : ∀ it ∈ pre, it.Ok int p.opts)
    (hpost : ∀ it ∈ post, it.Ok int p.opts) {ws : List Arg} (hw : ∀ a ∈ ws, Word a) {sh : List (Pos × List Arg)}
    (hsh : shares p.poss ws = some sh) (hm : ∀ x ∈ sh, (meaning int x.1 x.2).isSome = true) :
    ∃ ns : Ns, Means int p (pre ++ post) sh (ns "func") ns ∧
      ∀ out yaml port timeout level', out = report int status call dump pr (words front ++ path ++ words pre ++ ws ++ words post) →
        yaml = asksYaml int (pre ++ post) → port = portOf int (pre ++ post) → timeout = timeoutOf int (pre ++ post) →
        level' = level (front ++ pre ++ post) →
        (pr = .tomato → Answers call dump yaml [] (.str (fname pr path)) ns level' none out) ∧
        (pr ≠ .tomato →
          (∀ r, status (some port) (some timeout) = .ok r →
            (r.success = true →
              Answers call dump yaml [.asked (some port) (some timeout)] (.str (fname pr path)) ns level' r.data out) ∧
            (r.success = false → Ends dump yaml [.asked (some port) (some timeout)] r out)) ∧
          (∀ e, status (some port) (some timeout) = .error e →
            out.events = [.asked (some port) (some timeout)] ∧ out.status = 1)) := by
  obtain ⟨ns, hr, hmeans⟩ := C127_partial int (fun _ _ => true) hc hfront hpre hpost hw hsh hm
  refine ⟨ns, hmeans, ?_⟩
  rw [if_neg (by simp)] at hr
  have hp := parsed_of_called hr
  obtain ⟨hdef, hport, htime, hyaml⟩ := C127_named hc
  have hns := hmeans.2.1
  have e1 := hns _ hport (by simp)
  have e2 := hns _ htime (by simp)
  have e3 := hns _ hyaml (by simp)
  have hy := wantsYaml_eq hc (items := pre ++ post)
    (fun it hit => (List.mem_append.1 hit).elim (hpre it) (hpost it)) e3
  have hf : ns "func" = some (.str (fname pr path)) := by
    obtain ⟨name, h1, h2⟩ := hmeans.1
    rw [hdef] at h1
    simp only [List.cons.injEq, Prod.mk.injEq, true_and, and_true] at h1
    rw [h2, ← h1]
  rintro out yaml port timeout lv rfl rfl rfl rfl rfl
  unfold report
  rw [hp]
  dsimp only at e1 e2 ⊢
  refine ⟨fun ht => ?_, fun ht => ?_⟩
  · rw [if_pos ht]
    exact callFunc_answers hy hf _ _ _
  · rw [if_neg ht, e1, e2]
    refine ⟨fun r hr => ⟨fun hs => ?_, fun hs => ?_⟩, fun e he => ?_⟩
    · simp only [portOf, timeoutOf] at hr
      rw [hr]
      simp only [hs, Bool.true_eq_false, if_false]
      exact callFunc_answers hy hf _ _ _
    · simp only [portOf, timeoutOf] at hr
      rw [hr]
      simp only [hs, if_true]
      exact finish_ends hy _ r
    · simp only [portOf, timeoutOf] at he
      rw [he]
      exact ⟨rfl, rfl⟩

/-! ## Any command line -/

/-- Where a reply comes from. -/
inductive Source {D : Type} (status : Option Val → Option Val → Except PyErr (Reply D))
    (call : Val → Ns → Int → Option D → Except PyErr (Reply D)) : List (Event D) → Reply D → Prop
  /-- the daemon is not there, nothing is called -/
  | absent {port timeout : Option Val} {r : Reply D} : status port timeout = .ok r → r.success = false →
      Source status call [.asked port timeout] r
  /-- `tomato` -/
  | alone {f : Val} {ns : Ns} {lv : Int} {r : Reply D} : call f ns lv none = .ok r →
      Source status call [.called f ns lv none] r
  /-- `ketchup` and `passata` -/
  | served {f : Val} {ns : Ns} {lv : Int} {d r : Reply D} : status (ns "port") (ns "timeout") = .ok d →
      d.success = true → call f ns lv d.data = .ok r →
      Source status call [.asked (ns "port") (ns "timeout"), .called f ns lv d.data] r

theorem silent {D : Type} {before l l' : List (Event D)} {t : String} (hb : ∀ e ∈ before, Event.isPrinted e = false)
    (h : before = l ++ .printed t :: l') : False := by
  have : Event.printed t ∈ before := by rw [h]; simp
  exact absurd (hb _ this) (by simp [Event.isPrinted])

theorem finish_source {D : Type} {dump : Reply D → Except PyErr String} {ns : Ns} {before : List (Event D)}
    {r : Reply D} {l l' : List (Event D)} {t : String} (hb : ∀ e ∈ before, Event.isPrinted e = false)
    (h : (finish before (show' dump ns r)).events = l ++ .printed t :: l') :
    l' = [] ∧ l = before ∧ (∃ yaml, Reports dump yaml r t) ∧ (finish before (show' dump ns r)).status = 0 := by
  cases hs : show' dump ns r with
  | error e =>
    rw [hs] at h
    exact (silent hb h).elim
  | ok t' =>
    rw [hs] at h
    have h' : before ++ [Event.printed t'] = l ++ .printed t :: l' := h
    rcases List.eq_nil_or_concat l' with rfl | ⟨l2, x, rfl⟩
    · obtain ⟨h1, h2⟩ := List.append_inj' h' rfl
      simp only [List.cons.injEq, Event.printed.injEq, and_true] at h2
      subst h1 h2
      refine ⟨rfl, rfl, ?_, rfl⟩
      unfold show' at hs
      cases hy : wantsYaml ns with
      | error e => rw [hy] at hs; cases hs
      | ok b =>
        rw [hy] at hs
        cases b with
        | true => exact ⟨true, fun _ => hs, fun h => (by cases h), fun h => (by cases h)⟩
        | false =>
          injection hs with hs
          subst hs
          exact ⟨false, fun h => (by cases h), fun _ h => by simp [h], fun _ h => by simp [h]⟩
    · rw [List.concat_eq_append, ← List.cons_append, ← List.append_assoc] at h'
      exact (silent hb (List.append_inj' h' rfl).1).elim

/-- Whatever the command line: a text is printed only at the end, and it is the report of the reply of the one function
which was called, or of the daemon which is not there, in which case none was; the status is 0 then. -/
theorem C136_honest {D : Type} (int : Arg → Option Int) (status : Option Val → Option Val → Except PyErr (Reply D))
    (call : Val → Ns → Int → Option D → Except PyErr (Reply D)) (dump : Reply D → Except PyErr String) (pr : Program)
    (args : List Arg) {l l' : List (Event D)} {t : String}
    (h : (report int status call dump pr args).events = l ++ .printed t :: l') :
    l' = [] ∧ (∃ r yaml, Source status call l r ∧ Reports dump yaml r t) ∧
      (report int status call dump pr args).status = 0 := by
  have hcall : ∀ (before : List (Event D)) (ns : Ns) (lv : Int) (d : Option D),
      (∀ e ∈ before, Event.isPrinted e = false) →
      (callFunc call dump before ns lv d).events = l ++ .printed t :: l' →
      l' = [] ∧ (∃ f r yaml, call f ns lv d = .ok r ∧ l = before ++ [.called f ns lv d] ∧ Reports dump yaml r t) ∧
        (callFunc call dump before ns lv d).status = 0 := by
    intro before ns lv d hb h
    unfold callFunc at h ⊢
    cases hf : ns "func" with
    | none => rw [hf] at h; exact (silent hb h).elim
    | some f =>
      rw [hf] at h
      have hb' : ∀ e ∈ before ++ [Event.called f ns lv d], Event.isPrinted e = false := by
        intro e he
        rcases List.mem_append.1 he with he | he
        · exact hb e he
        · rw [List.mem_singleton.1 he]; rfl
      dsimp only at h ⊢
      cases hc : call f ns lv d with
      | error e => rw [hc] at h; exact (silent hb' h).elim
      | ok r =>
        rw [hc] at h
        obtain ⟨h1, h2, ⟨y, h3⟩, h4⟩ := finish_source hb' h
        exact ⟨h1, ⟨f, r, y, hc, h2, h3⟩, h4⟩
  unfold report at h ⊢
  cases hp : parsed int pr args with
  | error e => rw [hp] at h; simp at h
  | ok x =>
    obtain ⟨ns, lv⟩ := x
    rw [hp] at h
    dsimp only at h ⊢
    by_cases ht : pr = .tomato
    · rw [if_pos ht] at h ⊢
      obtain ⟨h1, ⟨f, r, y, h2, h3, h4⟩, h5⟩ := hcall _ _ _ _ (by simp) h
      refine ⟨h1, ⟨r, y, ?_, h4⟩, h5⟩
      rw [h3]
      exact .alone h2
    · rw [if_neg ht] at h ⊢
      have hb : ∀ e ∈ [(Event.asked (ns "port") (ns "timeout") : Event D)], Event.isPrinted e = false := by
        intro e he
        rw [List.mem_singleton.1 he]; rfl
      cases hs : status (ns "port") (ns "timeout") with
      | error e => rw [hs] at h; exact (silent hb h).elim
      | ok d =>
        rw [hs] at h
        dsimp only at h ⊢
        cases hd : d.success with
        | false =>
          simp only [hd, if_true] at h ⊢
          obtain ⟨h1, h2, ⟨y, h3⟩, h4⟩ := finish_source hb h
          refine ⟨h1, ⟨d, y, ?_, h3⟩, h4⟩
          rw [h2]
          exact .absent hs hd
        | true =>
          simp only [hd, Bool.true_eq_false, if_false] at h ⊢
          obtain ⟨h1, ⟨f, r, y, h2, h3, h4⟩, h5⟩ := hcall _ _ _ _ hb h
          refine ⟨h1, ⟨r, y, ?_, h4⟩, h5⟩
          rw [h3]
          exact .served hs hd h2

/-- Whatever the command line: a function is called at most once, and by `ketchup` and `passata` only with the daemon
which answered on the port which the function is given. -/
theorem C136_served {D : Type} (int : Arg → Option Int) (status : Option Val → Option Val → Except PyErr (Reply D))
    (call : Val → Ns → Int → Option D → Except PyErr (Reply D)) (dump : Reply D → Except PyErr String) (pr : Program)
    (args : List Arg) {l l' : List (Event D)} {f : Val} {ns : Ns} {lv : Int} {d : Option D}
    (h : (report int status call dump pr args).events = l ++ .called f ns lv d :: l') :
    (∀ e ∈ l ++ l', Event.isCalled e = false) ∧
    (if pr = .tomato then l = [] ∧ d = none
     else l = [.asked (ns "port") (ns "timeout")] ∧
      ∃ r, status (ns "port") (ns "timeout") = .ok r ∧ r.success = true ∧ d = r.data) := by
  have hnot : ∀ (before : List (Event D)), (∀ e ∈ before, Event.isCalled e = false) →
      before = l ++ .called f ns lv d :: l' → False := by
    intro before hb h
    have : Event.called f ns lv d ∈ before := by rw [h]; simp
    exact absurd (hb _ this) (by simp [Event.isCalled])
  have hone : ∀ (before after : List (Event D)) (x : Event D), (∀ e ∈ before, Event.isCalled e = false) →
      (∀ e ∈ after, Event.isCalled e = false) →
      before ++ x :: after = l ++ .called f ns lv d :: l' → l = before ∧ x = .called f ns lv d ∧ l' = after := by
    intro before after x hb ha h
    rw [List.append_eq_append_iff] at h
    rcases h with ⟨m, h1, h2⟩ | ⟨m, h1, h2⟩
    · cases m with
      | nil =>
        simp only [List.append_nil, List.nil_append, List.cons.injEq] at h1 h2
        exact ⟨h1, h2.1, h2.2.symm⟩
      | cons y m =>
        simp only [List.cons_append, List.cons.injEq] at h2
        have : Event.called f ns lv d ∈ after := by rw [h2.2]; simp
        exact absurd (ha _ this) (by simp [Event.isCalled])
    · cases m with
      | nil =>
        simp only [List.append_nil, List.nil_append, List.cons.injEq] at h1 h2
        exact ⟨h1.symm, h2.1.symm, h2.2⟩
      | cons y m =>
        simp only [List.cons_append, List.cons.injEq] at h2
        have : Event.called f ns lv d ∈ before := by rw [h1, h2.1]; simp
        exact absurd (hb _ this) (by simp [Event.isCalled])
  have hfin : ∀ (before : List (Event D)) (x : Except PyErr String), ∃ after, (finish before x).events = before ++ after ∧
      ∀ e ∈ after, Event.isCalled e = false := by
    intro before x
    cases x with
    | error e => exact ⟨[], by simp [finish], by simp⟩
    | ok t => exact ⟨[.printed t], rfl, by simp [Event.isCalled]⟩
  have hcall : ∀ (before : List (Event D)) (ns' : Ns) (lv' : Int) (d' : Option D),
      (∀ e ∈ before, Event.isCalled e = false) →
      (callFunc call dump before ns' lv' d').events = l ++ .called f ns lv d :: l' →
      l = before ∧ ns' = ns ∧ d' = d ∧ ∀ e ∈ l', Event.isCalled e = false := by
    intro before ns' lv' d' hb h
    unfold callFunc at h
    cases hf : ns' "func" with
    | none => rw [hf] at h; exact (hnot _ hb h).elim
    | some f' =>
      rw [hf] at h
      dsimp only at h
      have key : ∀ after : List (Event D), (∀ e ∈ after, Event.isCalled e = false) →
          before ++ .called f' ns' lv' d' :: after = l ++ .called f ns lv d :: l' →
          l = before ∧ ns' = ns ∧ d' = d ∧ ∀ e ∈ l', Event.isCalled e = false := by
        intro after ha h
        obtain ⟨h1, h2, h3⟩ := hone _ _ _ hb ha h
        injection h2 with _ h4 _ h5
        exact ⟨h1, h4, h5, by rw [h3]; exact ha⟩
      cases hc : call f' ns' lv' d' with
      | error e => rw [hc] at h; exact key [] (by simp) h
      | ok r =>
        rw [hc] at h
        obtain ⟨after, ha, hb'⟩ := hfin (before ++ [.called f' ns' lv' d']) (show' dump ns' r)
        dsimp only at h
        rw [ha] at h
        exact key after hb' (by simpa using h)
  unfold report at h
  cases hp : parsed int pr args with
  | error e => rw [hp] at h; simp at h
  | ok x =>
    obtain ⟨ns', lv'⟩ := x
    rw [hp] at h
    dsimp only at h
    by_cases ht : pr = .tomato
    · rw [if_pos ht] at h ⊢
      obtain ⟨h1, h2, h3, h4⟩ := hcall _ _ _ _ (by simp) h
      subst h1
      exact ⟨by simpa using h4, rfl, h3.symm⟩
    · rw [if_neg ht] at h ⊢
      have hb : ∀ e ∈ [(Event.asked (ns' "port") (ns' "timeout") : Event D)], Event.isCalled e = false := by
        intro e he
        rw [List.mem_singleton.1 he]; rfl
      cases hs : status (ns' "port") (ns' "timeout") with
      | error e => rw [hs] at h; exact (hnot _ hb h).elim
      | ok r =>
        rw [hs] at h
        dsimp only at h
        cases hd : r.success with
        | false =>
          simp only [hd, if_true] at h
          obtain ⟨after, ha, hb'⟩ := hfin [.asked (ns' "port") (ns' "timeout")] (show' dump ns' r)
          rw [ha] at h
          refine (hnot _ ?_ h).elim
          intro e he
          rcases List.mem_append.1 he with he | he
          · exact hb e he
          · exact hb' e he
        | true =>
          simp only [hd, Bool.true_eq_false, if_false] at h
          obtain ⟨h1, h2, h3, h4⟩ := hcall _ _ _ _ hb h
          subst h1 h2 h3
          refine ⟨?_, rfl, r, hs, hd, rfl⟩
          intro e he
          rcases List.mem_append.1 he with he | he
          · exact hb e he
          · exact h4 e he

/-- Whatever the command line: after an error of usage, an exception, or `--help`, nothing is printed; and the status
is 0 after every report. -/
theorem C136_status {D : Type} (int : Arg → Option Int) (status : Option Val → Option Val → Except PyErr (Reply D))
    (call : Val → Ns → Int → Option D → Except PyErr (Reply D)) (dump : Reply D → Except PyErr String) (pr : Program)
    (args : List Arg) (h : (report int status call dump pr args).status ≠ 0) :
    ∀ e ∈ (report int status call dump pr args).events, Event.isPrinted e = false := by
  intro e he
  cases hp : Event.isPrinted e with
  | false => rfl
  | true =>
    cases e with
    | printed t =>
      obtain ⟨l, l', hl⟩ := List.append_of_mem he
      exact absurd (C136_honest int status call dump pr args hl).2.2 h
    | asked _ _ => cases hp
    | called _ _ _ _ => cases hp

/-! ## Refutation -/

/-- The exit status does not tell whether the command succeeded: `ketchup cancel 12`, which fails, ends with 0. -/
theorem C136_refuted : ¬ ∀ (status : Option Val → Option Val → Except PyErr (Reply Unit))
    (call : Val → Ns → Int → Option Unit → Except PyErr (Reply Unit)) (dump : Reply Unit → Except PyErr String)
    (args : List Arg), (report some3 status call dump .ketchup args).status = 0 →
      ∀ f ns lv d, .called f ns lv d ∈ (report some3 status call dump .ketchup args).events →
        ∃ r, call f ns lv d = .ok r ∧ r.success = true := by
  intro h
  have h1 := h (fun _ _ => .ok { success := true, msg := "" })
    (fun _ _ _ _ => .ok { success := false, msg := "job 12 does not exist" }) (fun _ => .ok "")
    [w "cancel", w "12"] (by decide +kernel)
  have h2 : ∃ e ∈ (report some3 (fun _ _ => .ok { success := true, msg := "" })
      (fun _ _ _ _ => .ok { success := false, msg := "job 12 does not exist" }) (fun _ => .ok "") .ketchup
      [w "cancel", w "12"] : Ended Unit).events, Event.isCalled e = true := by decide +kernel
  obtain ⟨e, he, hc⟩ := h2
  cases e with
  | called f ns lv d =>
    obtain ⟨r, h3, h4⟩ := h1 f ns lv d he
    injection h3 with h3
    subst h3
    cases h4
  | asked _ _ => cases hc
  | printed _ => cases hc

/-- Nor whether anything was done: without a daemon `ketchup cancel 12` ends with 0 as well. -/
theorem C136_refuted_absent : ¬ ∀ (status : Option Val → Option Val → Except PyErr (Reply Unit))
    (call : Val → Ns → Int → Option Unit → Except PyErr (Reply Unit)) (dump : Reply Unit → Except PyErr String)
    (args : List Arg), (report some3 status call dump .ketchup args).status = 0 →
      ∃ e ∈ (report some3 status call dump .ketchup args).events, Event.isCalled e = true := by
  intro h
  obtain ⟨e, he, hc⟩ := h (fun _ _ => .ok { success := false, msg := "tomato not running on port 1234" })
    (fun _ _ _ _ => .ok { success := true, msg := "" }) (fun _ => .ok "") [w "cancel", w "12"] (by decide +kernel)
  have : ∀ e ∈ (report some3 (fun _ _ => .ok { success := false, msg := "tomato not running on port 1234" })
    (fun _ _ _ _ => .ok { success := true, msg := "" }) (fun _ => .ok "") .ketchup [w "cancel", w "12"] : Ended Unit).events,
      Event.isCalled e = false := by decide +kernel
  rw [this e he] at hc
  cases hc

/-! ## Examples -/

/-- The conditions of `C136_partial` for `ketchup cancel -y 12`: the reply of `cancel` is printed in YAML. -/
example (status : Option Val → Option Val → Except PyErr (Reply Unit))
    (call : Val → Ns → Int → Option Unit → Except PyErr (Reply Unit)) (dump : Reply Unit → Except PyErr String)
    (d : Reply Unit) (hd : status (some (.int 1234)) (some (.int 3000)) = .ok d) (hs : d.success = true)
    (r : Reply Unit) (hr : ∀ ns, call (.str (w "ketchup.cancel")) ns 20 d.data = .ok r) (t : String)
    (ht : dump r = .ok t) :
    ∃ ns, ns "jobids" = some (.list [.int 12]) ∧
      (report some3 status call dump .ketchup [w "cancel", w "-y", w "12"]).events =
        [.asked (some (.int 1234)) (some (.int 3000)), .called (.str (w "ketchup.cancel")) ns 20 d.data, .printed t] ∧
      (report some3 status call dump .ketchup [w "cancel", w "-y", w "12"]).status = 0 := by
  have hy : yamlOpt ∈ cancel.opts := by simp [cancel, common, yamlOpt]
  obtain ⟨ns, hm, h⟩ := C136_partial some3 status call dump (pr := .ketchup) (path := [w "cancel"])
    (p := cancel) (List.mem_of_getElem? (i := 2) rfl) (front := []) (pre := [.flag yamlOpt (w "-y")]) (post := [])
    (by simp) (by
      intro it hit
      rw [List.mem_singleton.1 hit]
      exact ⟨hy, Or.inl (by decide), rfl⟩)
    (by simp) (ws := [w "12"]) (fun a ha => Or.inl (by revert a; decide)) rfl (by
      intro x hx
      simp only [List.mem_cons, List.not_mem_nil, or_false] at hx
      subst hx
      rfl)
  have h1 := ((h _ _ _ _ _ rfl rfl rfl rfl rfl).2 (by decide)).1 d hd
  obtain ⟨h2, h3⟩ := ((h1.1 hs).1 r (hr ns)).1 t ⟨fun _ => ht, fun h => (by cases h), fun h => (by cases h)⟩
  refine ⟨ns, ?_, h2, h3⟩
  obtain ⟨v, hv, h⟩ := hm.2.2 _ List.mem_cons_self
  cases hv
  exact h

/-- What is printed. -/
def texts {D : Type} (out : Ended D) : List String :=
  out.events.filterMap (fun e => match e with | .printed t => some t | _ => none)

example : texts (report some3 (fun _ _ => .ok { success := true, msg := "" })
    (fun _ _ _ _ => .ok { success := false, msg := "job 12 does not exist" }) (fun _ => .ok "success: false")
    .ketchup [w "cancel", w "12"] : Ended Unit) = ["Failure: job 12 does not exist"] := by decide +kernel

example : texts (report some3 (fun _ _ => .ok { success := true, msg := "" })
    (fun _ _ _ _ => .ok { success := false, msg := "job 12 does not exist" }) (fun _ => .ok "success: false")
    .ketchup [w "cancel", w "-y", w "12"] : Ended Unit) = ["success: false"] := by decide +kernel

example : texts (report some3 (fun _ _ => .ok { success := false, msg := "tomato not running on port 1235" })
    (fun _ _ _ _ => .ok { success := true, msg := "" }) (fun _ => .ok "")
    .passata [w "status", w "-p", w "1235", w "a"] : Ended Unit) = ["Failure: tomato not running on port 1235"] := by
  decide +kernel

end Tomato.Props.Reported
