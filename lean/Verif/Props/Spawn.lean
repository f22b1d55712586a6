import Verif.Spawn
import Verif.Props.CmdLine
import Mathlib.Data.Nat.Digits.Lemmas

/-!
# The processes of tomato are told what is meant for them (C128)
-/

namespace Tomato.Props.Told
open Tomato.Args Tomato.CmdLine Tomato.Spawn Tomato.Props.Line

/-! ## Specification -/

/-- Python's `str` and `int` for integers which are not negative. -/
def Numbers (str : Int → Arg) (int : Arg → Option Int) : Prop :=
  ∀ n, 0 ≤ n → Word (str n) ∧ int (str n) = some n

/-- The process knows these values. -/
def Knows (r : Except Stop Ns) (l : List (String × Val)) : Prop :=
  ∃ ns, r = .ok ns ∧ ∀ q ∈ l, ns q.1 = some q.2

/-! ## Proofs -/

/-- The conditions `Good` as a computation. -/
def goodOk (p : Parser) : Bool :=
  shortOk p.opts &&
  p.opts.all (fun o => o.names.all (fun n => decide (n.take 2 ≠ w "-v" ∧ n.take 2 ≠ w "-q"))) &&
  longs.all (fun a => isUnknown (classify p.opts a)) &&
  decide (p.opts.map (fun o => o.dest) ++ p.poss.map (fun q => q.dest)).Nodup &&
  p.poss.all (fun q => decide (q.nargs ≠ .star))

theorem good_of {p : Parser} (h : goodOk p = true) : Good p := by
  simp only [goodOk, Bool.and_eq_true, decide_eq_true_eq] at h
  obtain ⟨⟨⟨⟨h1, h2⟩, h3⟩, h4⟩, h5⟩ := h
  refine ⟨sane_of h1, ?_, ?_, ?_, ?_⟩
  · intro a ha
    rcases ha with ha | ⟨s, g1, g2, rfl⟩
    · have := List.all_eq_true.1 h3 a ha
      cases hc : classify p.opts a <;> rw [hc] at this <;> first | rfl | exact absurd this (by simp [isUnknown])
    · exact deaf_short (fun o ho n hn => of_decide_eq_true (List.all_eq_true.1 (List.all_eq_true.1 h2 o ho) n hn)) g1 g2
  · intro o ho q hq he
    exact (List.nodup_append.1 h4).2.2 _ (List.mem_map_of_mem ho) _ (List.mem_map_of_mem hq) he
  · exact (List.nodup_append.1 h4).2.1
  · intro q hq hs
    exact absurd hs (of_decide_eq_true (List.all_eq_true.1 h5 q hq))

/-- A command line of options with their values, and the positionals. -/
theorem parse_told {int : Arg → Option Int} {p : Parser} (hg : Good p) {pre : List Item}
    (hpre : ∀ it ∈ pre, it.Ok int p.opts) (hloud : pre.flatMap loud = []) {ws : List Arg} (hw : ∀ a ∈ ws, Word a)
    {sh : List (Pos × List Arg)} {vs : List Val} (hsh : shares p.poss ws = some sh)
    (hv : sh.map (fun x => meaning int x.1 x.2) = vs.map some) :
    ∃ ns, parseArgs int p (words pre ++ ws) = .ok ns ∧
      (∀ k, (∀ q ∈ p.poss, q.dest ≠ k) →
        ns k = (saidLast int k pre).or (Ns.empty.addDefaults p.allDefaults k)) ∧
      (∀ x ∈ (sh.map (·.1)).zip vs, ns x.1.dest = some x.2) := by
  obtain ⟨ns, h1, h2, h3⟩ := loop_leaf (sub := noSub) hg hpre (post := []) (by simp) hw hsh hv
    (Ns.empty.addDefaults p.allDefaults) ((words pre ++ ws).length + 1) (by
      have ha := @words_length pre
      simp only [List.length_append, List.length_nil]
      split
      · omega
      · next hne =>
        have := List.length_pos_iff.2 hne
        omega)
  simp only [words, List.flatMap_nil, List.append_nil, hloud] at h1 h2
  refine ⟨ns, ?_, h2, h3⟩
  have hp := parse_fine (int := int) (sub := noSub) (p := p) (ns := Ns.empty) (args := words pre ++ ws) (by
    intro a ha
    rcases List.mem_append.1 ha with ha | ha
    · obtain ⟨it, hit, ha⟩ := List.mem_flatMap.1 ha
      exact item_words hg.sane hg.deaf (hpre it hit) a ha
    · exact fine_word hg.sane (hw a ha)) (by simpa only [words] using h1) rfl
  simp only [parseArgs, hp, List.append_nil]

variable {str : Int → Arg} {int : Arg → Option Int}

/-- The daemon is told the port, the directory and the log level with which it is started.
Missing for C128: directories which begin with a dash (`C128_refuted`). -/
theorem C128_daemon_partial (hn : Numbers str int) {port verbosity : Int} (hp : 0 ≤ port) (hv : 0 ≤ verbosity)
    {appdir : Arg} (ha : Word appdir) :
    Knows (parseArgs int daemonP (daemonCmd str port appdir verbosity))
      [("port", .int port), ("appdir", .str appdir), ("verbosity", .int verbosity)] := by
  obtain ⟨w1, i1⟩ := hn port hp
  obtain ⟨w2, i2⟩ := hn verbosity hv
  let oP : Opt := { names := [w "--port", w "-p"], dest := "port", kind := .store .int, default := .int 1234 }
  let oV : Opt := { names := [w "--verbosity", w "-V"], dest := "verbosity", kind := .store .int, default := .int 20 }
  let oA : Opt := { names := [w "--appdir", w "-A"], dest := "appdir", kind := .store .str, default := .str (w "cwd") }
  obtain ⟨ns, h1, h2, _⟩ := parse_told (int := int) (p := daemonP) (good_of (by decide +kernel))
    (pre := [.two oP (w "-p") (str port), .two oA (w "-A") appdir, .two oV (w "-V") (str verbosity)])
    (by
      intro it hit
      simp only [List.mem_cons, List.not_mem_nil, or_false] at hit
      rcases hit with rfl | rfl | rfl
      · exact ⟨⟨by simp [daemonP, oP], .int, .int port, rfl, by simp [reads, i1]⟩, Or.inl (by simp [oP]), w1⟩
      · exact ⟨⟨by simp [daemonP, oA], .str, .str appdir, rfl, rfl⟩, Or.inl (by simp [oA]), ha⟩
      · exact ⟨⟨by simp [daemonP, oV], .int, .int verbosity, rfl, by simp [reads, i2]⟩, Or.inl (by simp [oV]), w2⟩)
    rfl (ws := []) (by simp) (sh := []) (vs := []) rfl rfl
  refine ⟨ns, h1, ?_⟩
  intro q hq
  simp only [List.mem_cons, List.not_mem_nil, or_false] at hq
  rcases hq with rfl | rfl | rfl <;> rw [h2 _ (by simp [daemonP])] <;>
    simp [saidLast, lastOf, Item.says, valueSays, oP, oA, oV, reads, i1, i2]

/-- A driver process is told the port of the daemon, the log level, the directory of the logs and the name of the driver.
Missing for C128: directories and names which begin with a dash (`C128_refuted_driver`). -/
theorem C128_driver_partial (hn : Numbers str int) {port verbosity : Int} (hp : 0 ≤ port) (hv : 0 ≤ verbosity)
    {logdir name : Arg} (hl : Word logdir) (hd : Word name) :
    Knows (parseArgs int driverP (driverCmd str port verbosity logdir name))
      [("port", .int port), ("verbosity", .int verbosity), ("logdir", .str logdir), ("driver", .str name)] := by
  obtain ⟨w1, i1⟩ := hn port hp
  obtain ⟨w2, i2⟩ := hn verbosity hv
  let oP : Opt := { names := [w "--port"], dest := "port", kind := .store .int, default := .int 1234 }
  let oV : Opt := { names := [w "--verbosity"], dest := "verbosity", kind := .store .int, default := .int 10 }
  let oL : Opt := { names := [w "--logdir"], dest := "logdir", kind := .store .str, default := .str (w ".") }
  obtain ⟨ns, h1, h2, h3⟩ := parse_told (int := int) (p := driverP) (good_of (by decide +kernel))
    (pre := [.two oP (w "--port") (str port), .two oV (w "--verbosity") (str verbosity), .two oL (w "--logdir") logdir])
    (by
      intro it hit
      simp only [List.mem_cons, List.not_mem_nil, or_false] at hit
      rcases hit with rfl | rfl | rfl
      · exact ⟨⟨by simp [driverP, oP], .int, .int port, rfl, by simp [reads, i1]⟩, Or.inl (by simp [oP]), w1⟩
      · exact ⟨⟨by simp [driverP, oV], .int, .int verbosity, rfl, by simp [reads, i2]⟩, Or.inl (by simp [oV]), w2⟩
      · exact ⟨⟨by simp [driverP, oL], .str, .str logdir, rfl, rfl⟩, Or.inl (by simp [oL]), hl⟩)
    rfl (ws := [name]) (by simpa using hd) (sh := [({ dest := "driver" }, [name])]) (vs := [.str name]) rfl rfl
  refine ⟨ns, h1, ?_⟩
  intro q hq
  simp only [List.mem_cons, List.not_mem_nil, or_false] at hq
  rcases hq with rfl | rfl | rfl | rfl
  iterate 3
    rw [h2 _ (by simp [driverP])]
    simp [saidLast, lastOf, Item.says, valueSays, oP, oV, oL, reads, i1, i2]
  exact h3 ({ dest := "driver" }, .str name) (by simp)

/-- A job process is told the port of the daemon, the log level, the database and its file; it waits 1000 ms for an
answer and asks ten times.
Missing for C128: paths which begin with a dash (`C128_refuted_job`). -/
theorem C128_job_partial (hn : Numbers str int) {port verbosity : Int} (hp : 0 ≤ port) (hv : 0 ≤ verbosity)
    {dbpath jpath : Arg} (hl : Word dbpath) (hd : Word jpath) :
    Knows (parseArgs int jobP (jobCmd str port verbosity dbpath jpath))
      [("port", .int port), ("verbosity", .int verbosity), ("dbpath", .str dbpath), ("jobfile", .str jpath),
       ("timeout", .int 1000), ("retries", .int 10)] := by
  obtain ⟨w1, i1⟩ := hn port hp
  obtain ⟨w2, i2⟩ := hn verbosity hv
  let oP : Opt := { names := [w "--port"], dest := "port", kind := .store .int, default := .int 1234 }
  let oV : Opt := { names := [w "--verbosity"], dest := "verbosity", kind := .store .int, default := .int 20 }
  let oL : Opt := { names := [w "--dbpath"], dest := "dbpath", kind := .store .str }
  obtain ⟨ns, h1, h2, h3⟩ := parse_told (int := int) (p := jobP) (good_of (by decide +kernel))
    (pre := [.two oP (w "--port") (str port), .two oV (w "--verbosity") (str verbosity), .two oL (w "--dbpath") dbpath])
    (by
      intro it hit
      simp only [List.mem_cons, List.not_mem_nil, or_false] at hit
      rcases hit with rfl | rfl | rfl
      · exact ⟨⟨by simp [jobP, oP], .int, .int port, rfl, by simp [reads, i1]⟩, Or.inl (by simp [oP]), w1⟩
      · exact ⟨⟨by simp [jobP, oV], .int, .int verbosity, rfl, by simp [reads, i2]⟩, Or.inl (by simp [oV]), w2⟩
      · exact ⟨⟨by simp [jobP, oL], .str, .str dbpath, rfl, rfl⟩, Or.inl (by simp [oL]), hl⟩)
    rfl (ws := [jpath]) (by simpa using hd) (sh := [({ dest := "jobfile" }, [jpath])]) (vs := [.str jpath]) rfl rfl
  refine ⟨ns, h1, ?_⟩
  intro q hq
  simp only [List.mem_cons, List.not_mem_nil, or_false] at hq
  rcases hq with rfl | rfl | rfl | rfl | rfl | rfl
  iterate 3
    rw [h2 _ (by simp [jobP])]
    simp [saidLast, lastOf, Item.says, valueSays, oP, oV, oL, reads, i1, i2]
  · exact h3 ({ dest := "jobfile" }, .str jpath) (by simp)
  · rw [h2 _ (by simp [jobP])]
    simp [saidLast, lastOf, Item.says, valueSays, oP, oV, oL, reads, i1, i2]
    rfl
  · rw [h2 _ (by simp [jobP])]
    simp [saidLast, lastOf, Item.says, valueSays, oP, oV, oL, reads, i1, i2]
    rfl

/-- `tomato start`. -/
def startP : Parser where
  opts := help :: common ++ [appdir]
  poss := []
  defaults := func "tomato.start"

/-- From the command line of `tomato start` to the daemon: it is told the port and the directory of that command line, or
their defaults, and the log level asked for. -/
theorem C128_start_partial (hn : Numbers str int) (up : Option Val → Option Val → Bool) {front pre post : List Item}
    (hfront : ∀ it ∈ front, it.Ok int []) (hpre : ∀ it ∈ pre, it.Ok int startP.opts)
    (hpost : ∀ it ∈ post, it.Ok int startP.opts) :
    ∃ ns lv, run int up .tomato (words front ++ [w "start"] ++ words pre ++ words post) =
        .called (some (.str (w "tomato.start"))) ns lv ∧
      ∀ port dir, ns "port" = some (.int port) → 0 ≤ port → ns "appdir" = some (.str dir) → Word dir →
        Knows (parseArgs int daemonP (daemonCmd str port dir lv))
          [("port", (saidLast int "port" (pre ++ post)).getD (.int 1234)),
           ("appdir", (saidLast int "appdir" (pre ++ post)).getD (.str (w "user_config_dir"))),
           ("verbosity", .int (level (front ++ pre ++ post)))] := by
  have hc : ([w "start"], startP) ∈ commands .tomato := List.mem_of_getElem? (i := 1) rfl
  obtain ⟨ns, h1, ⟨name, h2, h2'⟩, h3, _⟩ := C127_partial int up (pr := .tomato) hc hfront hpre hpost (ws := []) (by simp)
    (sh := []) rfl (by simp)
  cases h2
  refine ⟨ns, level (front ++ pre ++ post), ?_, ?_⟩
  · rw [List.append_nil] at h1
    rw [h1, if_neg (by simp), h2']
  · intro port dir hp hp0 hd hw
    have h4 := h3 { names := [w "--port", w "-p"], dest := "port", kind := .store .int, default := .int 1234 }
      (by simp [startP, common]) (by simp)
    have h5 := h3 appdir (by simp [startP]) (by simp [appdir])
    simp only [appdir] at h5
    rw [hp] at h4
    rw [hd] at h5
    simp only [Option.some.injEq] at h4 h5
    rw [← h4, ← h5]
    exact C128_daemon_partial hn hp0 (by unfold level; omega) hw

/-! ## Directories and names which begin with a dash -/

/-- A directory whose name begins with a dash, as in `tomato start --appdir=-data`: the daemon does not start, whatever
the port and the log level. -/
theorem C128_refuted (hn : Numbers str int) {port verbosity : Int} (hp : 0 ≤ port) (hv : 0 ≤ verbosity) :
    parseArgs int daemonP (daemonCmd str port (w "-data") verbosity) = .error .usage := by
  obtain ⟨w1, i1⟩ := hn port hp
  obtain ⟨w2, i2⟩ := hn verbosity hv
  have hg : Good daemonP := good_of (by decide +kernel)
  let oP : Opt := { names := [w "--port", w "-p"], dest := "port", kind := .store .int, default := .int 1234 }
  have hok : (Item.two oP (w "-p") (str port)).Ok int daemonP.opts :=
    ⟨⟨by simp [daemonP, oP], .int, .int port, rfl, by simp [reads, i1]⟩, Or.inl (by simp [oP]), w1⟩
  have hloop := loop_item (sub := noSub) hg.sane hg.deaf hok 6
    { ns := Ns.empty.addDefaults daemonP.allDefaults, poss := daemonP.poss }
    (cls daemonP.opts [w "-A", w "-data", w "-V", str verbosity])
  rw [← cls_append] at hloop
  have hargs : (Item.two oP (w "-p") (str port)).words ++ [w "-A", w "-data", w "-V", str verbosity] =
    daemonCmd str port (w "-data") verbosity := rfl
  rw [hargs] at hloop
  simp only [parseArgs, parseKnown]
  have hd : (daemonCmd str port (w "-data") verbosity).contains ['-', '-'] = false := by
    by_contra hc
    simp only [Bool.not_eq_false, List.contains_iff_mem, daemonCmd, List.mem_cons, List.not_mem_nil, or_false] at hc
    rcases hc with h | h | h | h | h | h
    · revert h; decide
    · exact word_ne w1 h.symm
    · revert h; decide
    · revert h; decide
    · revert h; decide
    · exact word_ne w2 h.symm
  have ha : ((daemonCmd str port (w "-data") verbosity).map (fun a => (a, classify daemonP.opts a))).any
      (fun q => q.2.isAmbiguous) = false := by
    simp only [daemonCmd, List.map_cons, List.map_nil, classify_word hg.sane w1, classify_word hg.sane w2]
    rfl
  rw [if_neg (by rw [hd]; simp), if_neg (by rw [ha]; simp)]
  simp only [cls] at hloop
  rw [show (daemonCmd str port (w "-data") verbosity).length + 1 = 6 + 1 from rfl, hloop]
  simp only [List.map_cons, List.map_nil, classify_word hg.sane w2]
  rfl

/-- The positional is taken for an option nobody knows. -/
theorem parse_bad {p : Parser} (hg : Good p) {pre : List Item} (hpre : ∀ it ∈ pre, it.Ok int p.opts) {q : Pos}
    (hq : p.poss = [q]) (hq1 : q.nargs = .one) {a : Arg} (ha : a ≠ w "--") (hc : classify p.opts a = .unknown) :
    parseArgs int p (words pre ++ [a]) = .error .usage := by
  have hfine : ∀ b ∈ words pre ++ [a], Fine p.opts b := by
    intro b hb
    rcases List.mem_append.1 hb with hb | hb
    · obtain ⟨it, hit, hb⟩ := List.mem_flatMap.1 hb
      exact item_words hg.sane hg.deaf (hpre it hit) b hb
    · simp only [List.mem_singleton] at hb
      subst hb
      exact ⟨ha, by rw [hc]; rfl⟩
  have h1 : (words pre ++ [a]).contains ['-', '-'] = false := by
    by_contra h
    simp only [Bool.not_eq_false, List.contains_iff_mem] at h
    exact (hfine _ h).1 rfl
  have h2 : ((words pre ++ [a]).map (fun a => (a, classify p.opts a))).any (fun q => q.2.isAmbiguous) = false := by
    rw [List.any_eq_false]
    intro x hx
    obtain ⟨b, hb, rfl⟩ := List.mem_map.1 hx
    simp [(hfine b hb).2]
  obtain ⟨g, hlen⟩ : ∃ g, (words pre ++ [a]).length + 1 = (g + 2) + pre.length := by
    have := @words_length pre
    refine ⟨(words pre).length - pre.length, ?_⟩
    simp only [List.length_append, List.length_singleton]
    omega
  have hloop := loop_items (sub := noSub) hg.sane hg.deaf pre hpre (g + 2)
    { ns := Ns.empty.addDefaults p.allDefaults, poss := p.poss } (cls p.opts [a])
  rw [← cls_append] at hloop
  simp only [cls] at hloop
  simp only [parseArgs, parseKnown]
  rw [if_neg (by rw [h1]; simp), if_neg (by rw [h2]; simp), hlen, hloop]
  simp only [List.map_cons, List.map_nil, hc, hq, List.nil_append]
  have hlast : ∀ s : Args.St, s.poss = [q] →
      ∃ s', loop int noSub p.opts (g + 2) s [(a, Cls.unknown)] = .ok s' ∧ s'.poss = [q] := by
    intro s hs
    obtain ⟨ns, poss, ex, un⟩ := s
    simp only at hs
    subst hs
    have hfit : fitting [q] 0 1 = 0 := by
      simp only [fitting, List.take_succ_cons, List.take_zero, List.map_cons, List.map_nil, List.sum_cons,
        List.sum_nil, hq1]
      exact if_neg (by show ¬ 1 + 0 ≤ 0; omega)
    refine ⟨{ ns := ns, poss := [q], extras := ex ++ [a] ++ [], unrec := un }, ?_, rfl⟩
    rw [loop.eq_def]
    simp only [List.all_cons, Cls.isPos, Bool.false_and, Bool.false_eq_true, if_false]
    rw [loop.eq_def]
    simp only [List.all_nil, if_true, consumePos, List.takeWhile_nil, List.length_nil, List.length_cons, Nat.zero_add,
      hfit, List.take_zero, counts, List.zip_nil_left, doPoss]
    simp
  obtain ⟨s', hs1, hs2⟩ := hlast
    { ns := pre.foldl (Line.apply int) (Ns.empty.addDefaults p.allDefaults), poss := [q], extras := pre.flatMap loud } rfl
  rw [hs1]
  simp only [hs2, List.any_cons, hq1]
  rfl

/-- A driver whose name begins with a dash: its process does not start. -/
theorem C128_refuted_driver (hn : Numbers str int) {port verbosity : Int} (hp : 0 ≤ port) (hv : 0 ≤ verbosity)
    {logdir : Arg} (hl : Word logdir) :
    parseArgs int driverP (driverCmd str port verbosity logdir (w "-pump")) = .error .usage := by
  obtain ⟨w1, i1⟩ := hn port hp
  obtain ⟨w2, i2⟩ := hn verbosity hv
  let oP : Opt := { names := [w "--port"], dest := "port", kind := .store .int, default := .int 1234 }
  let oV : Opt := { names := [w "--verbosity"], dest := "verbosity", kind := .store .int, default := .int 10 }
  let oL : Opt := { names := [w "--logdir"], dest := "logdir", kind := .store .str, default := .str (w ".") }
  exact parse_bad (int := int) (p := driverP) (good_of (by decide +kernel))
    (pre := [.two oP (w "--port") (str port), .two oV (w "--verbosity") (str verbosity), .two oL (w "--logdir") logdir])
    (by
      intro it hit
      simp only [List.mem_cons, List.not_mem_nil, or_false] at hit
      rcases hit with rfl | rfl | rfl
      · exact ⟨⟨by simp [driverP, oP], .int, .int port, rfl, by simp [reads, i1]⟩, Or.inl (by simp [oP]), w1⟩
      · exact ⟨⟨by simp [driverP, oV], .int, .int verbosity, rfl, by simp [reads, i2]⟩, Or.inl (by simp [oV]), w2⟩
      · exact ⟨⟨by simp [driverP, oL], .str, .str logdir, rfl, rfl⟩, Or.inl (by simp [oL]), hl⟩)
    rfl rfl (by decide) rfl

/-- Jobs kept in a directory whose name begins with a dash: their processes do not start. -/
theorem C128_refuted_job (hn : Numbers str int) {port verbosity : Int} (hp : 0 ≤ port) (hv : 0 ≤ verbosity)
    {dbpath : Arg} (hl : Word dbpath) :
    parseArgs int jobP (jobCmd str port verbosity dbpath (w "-jobs/1/jobdata.json")) = .error .usage := by
  obtain ⟨w1, i1⟩ := hn port hp
  obtain ⟨w2, i2⟩ := hn verbosity hv
  let oP : Opt := { names := [w "--port"], dest := "port", kind := .store .int, default := .int 1234 }
  let oV : Opt := { names := [w "--verbosity"], dest := "verbosity", kind := .store .int, default := .int 20 }
  let oL : Opt := { names := [w "--dbpath"], dest := "dbpath", kind := .store .str }
  exact parse_bad (int := int) (p := jobP) (good_of (by decide +kernel))
    (pre := [.two oP (w "--port") (str port), .two oV (w "--verbosity") (str verbosity), .two oL (w "--dbpath") dbpath])
    (by
      intro it hit
      simp only [List.mem_cons, List.not_mem_nil, or_false] at hit
      rcases hit with rfl | rfl | rfl
      · exact ⟨⟨by simp [jobP, oP], .int, .int port, rfl, by simp [reads, i1]⟩, Or.inl (by simp [oP]), w1⟩
      · exact ⟨⟨by simp [jobP, oV], .int, .int verbosity, rfl, by simp [reads, i2]⟩, Or.inl (by simp [oV]), w2⟩
      · exact ⟨⟨by simp [jobP, oL], .str, .str dbpath, rfl, rfl⟩, Or.inl (by simp [oL]), hl⟩)
    rfl rfl (by decide) rfl

/-! ## Decimal numbers -/

/-- A digit. -/
def digit (d : Nat) : Char := Char.ofNat (48 + d)

/-- `str` of a number which is not negative. -/
def dec (n : Int) : Arg := if n = 0 then ['0'] else ((Nat.digits 10 n.toNat).map digit).reverse

/-- `int` of digits. -/
def undec (a : Arg) : Option Int := some (Nat.ofDigits 10 (a.reverse.map (fun c => c.toNat - 48)) : Nat)

theorem digit_spec (d : Nat) (h : d < 10) : (digit d).toNat - 48 = d ∧ digit d ≠ '-' := by
  have : ∀ d < 10, (digit d).toNat - 48 = d ∧ digit d ≠ '-' := by decide
  exact this d h

/-- There are such `str` and `int`. -/
theorem numbers_dec : Numbers dec undec := by
  intro n hn
  obtain ⟨m, rfl⟩ := Int.eq_ofNat_of_zero_le hn
  by_cases h0 : m = 0
  · subst h0
    exact ⟨Or.inl (by decide), by decide⟩
  · have hne : ((m : Nat) : Int) ≠ 0 := by omega
    have hlt : ∀ d ∈ Nat.digits 10 m, d < 10 := fun d hd => Nat.digits_lt_base (by omega) hd
    constructor
    · simp only [dec, if_neg hne, Int.toNat_natCast, Word]
      refine Or.inl ?_
      intro hh
      have hm := List.mem_of_mem_head? hh
      simp only [List.mem_reverse, List.mem_map] at hm
      obtain ⟨d, hd, he⟩ := hm
      exact (digit_spec d (hlt d hd)).2 he
    · simp only [dec, if_neg hne, Int.toNat_natCast, undec, List.reverse_reverse, List.map_map]
      have : (Nat.digits 10 m).map ((fun c : Char => c.toNat - 48) ∘ digit) = Nat.digits 10 m := by
        conv_rhs => rw [← List.map_id (Nat.digits 10 m)]
        apply List.map_congr_left
        intro d hd
        exact (digit_spec d (hlt d hd)).1
      rw [this, Nat.ofDigits_digits]

/-! ## Examples -/

/-- `tomato start -p 1235 -v --appdir=lab`: the daemon of port 1235 is told its directory, and to log everything. -/
example : Knows (parseArgs undec daemonP (daemonCmd dec 1235 (w "lab") 10))
    [("port", .int 1235), ("appdir", .str (w "lab")), ("verbosity", .int 10)] :=
  C128_daemon_partial numbers_dec (by decide) (by decide) (Or.inl (by decide))

example : Knows (parseArgs undec jobP (jobCmd dec 1235 20 (w "/data/Jobs/dbpath.sqlite") (w "/data/Jobs/7/jobdata.json")))
    [("port", .int 1235), ("verbosity", .int 20), ("dbpath", .str (w "/data/Jobs/dbpath.sqlite")),
     ("jobfile", .str (w "/data/Jobs/7/jobdata.json")), ("timeout", .int 1000), ("retries", .int 10)] :=
  C128_job_partial numbers_dec (by decide) (by decide) (Or.inl (by decide)) (Or.inl (by decide))

example : Knows (parseArgs undec driverP (driverCmd dec 1235 20 (w "/logs") (w "example_counter")))
    [("port", .int 1235), ("verbosity", .int 20), ("logdir", .str (w "/logs")), ("driver", .str (w "example_counter"))] :=
  C128_driver_partial numbers_dec (by decide) (by decide) (Or.inl (by decide)) (Or.inl (by decide))

/-- The conditions of `C128_start_partial` for `tomato start --appdir=lab -v`. -/
example : ∃ ns lv, run undec (fun _ _ => true) .tomato [w "start", w "--appdir=lab", w "-v"] =
      .called (some (.str (w "tomato.start"))) ns lv ∧
    ∀ port dir, ns "port" = some (.int port) → 0 ≤ port → ns "appdir" = some (.str dir) → Word dir →
      Knows (parseArgs undec daemonP (daemonCmd dec port dir lv))
        [("port", .int 1234), ("appdir", .str (w "lab")), ("verbosity", .int 10)] :=
  C128_start_partial numbers_dec (fun _ _ => true) (front := []) (pre := [.eq appdir (w "--appdir") (w "lab")])
    (post := [.louder (w "-v")]) (by simp)
    (by
      intro it hit
      simp only [List.mem_cons, List.not_mem_nil, or_false] at hit
      subst hit
      exact ⟨⟨by simp [startP], .str, _, rfl, rfl⟩, Or.inl (by simp [appdir]), by decide⟩)
    (by simp [Item.Ok])

end Tomato.Props.Told
