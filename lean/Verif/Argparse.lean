/-!
# `argparse`, as far as the command line programs use it

`ArgumentParser.parse_known_args` of the Python standard library (`argparse.py` of Python 3.11, lines 1880-2175 and
2205-2565), which `/repo/src/tomato/__init__.py:26-27` calls.  It is not code of the project, but what the programs
`tomato`, `ketchup` and `passata` do with their command lines is decided there.  The model has been compared with
the library on random command lines (see DESIGN.md).

Arguments are lists of characters.  Not modelled: the argument `--` (the outcome is `Stop.dashes`), messages,
`nargs` other than those used, options whose names look like negative numbers, conversions other than by the
parameter `int` (Python's `int`), digits other than `0`-`9` in the test for negative numbers.
-/

namespace Tomato.Args

abbrev Arg := List Char

/-- What a program gets from an argument. -/
inductive Val where
  | none
  | int (n : Int)
  | str (s : Arg)
  | bool (b : Bool)
  | list (l : List Val)
  deriving Repr

/-- The namespace: the attributes which have been set. -/
abbrev Ns := String → Option Val

def Ns.empty : Ns := fun _ => none

/-- `setattr`. -/
def Ns.set (ns : Ns) (k : String) (v : Val) : Ns := fun k' => if k' = k then some v else ns k'

/-- `type=`. -/
inductive Ty where
  | str
  | int
  deriving DecidableEq, Repr

/-- `action=` of an option: `store`, `store_true`, `count`, and `version` and `help`, which end the program. -/
inductive Kind where
  | store (ty : Ty)
  | setTrue
  | count
  | exit
  deriving DecidableEq, Repr

/-- An option. -/
structure Opt where
  names : List Arg
  dest : String
  kind : Kind
  default : Val := .none

/-- `nargs=`; `parser` is that of `add_subparsers`. -/
inductive Nargs where
  | one
  | opt
  | star
  | plus
  | parser
  deriving DecidableEq, Repr

/-- A positional argument. -/
structure Pos where
  dest : String
  nargs : Nargs := .one
  ty : Ty := .str
  choices : Option (List Arg) := none
  default : Val := .none

/-- A parser, with `set_defaults`. -/
structure Parser where
  opts : List Opt
  poss : List Pos
  defaults : List (String × Val) := []

/-- How parsing ends if not with a namespace: a usage error (exit code 2), `--version` or `--help` (exit code 0), or
an argument `--`, which is not modelled. -/
inductive Stop where
  | usage
  | shown
  | dashes
  deriving DecidableEq, Repr

/-- `_option_string_actions`. -/
def findOpt (os : List Opt) (name : Arg) : Option Opt := os.find? (fun o => o.names.contains name)

/-- What an argument is: a positional (`A`), an option with its explicit argument (`true`: after `=`), an option nobody
knows (both `O`), or ambiguous. -/
inductive Cls where
  | pos
  | opt (o : Opt) (name : Arg) (ex : Option (Bool × Arg))
  | unknown
  | ambiguous

/-- `arg_string.partition('=')`. -/
def cut (a : Arg) : Arg × Option Arg :=
  match a with
  | [] => ([], none)
  | c :: cs => if c = '=' then ([], some cs) else ((c :: (cut cs).1), (cut cs).2)

/-- `_get_option_tuples`, argparse.py:2300-2340. -/
def tuples (os : List Opt) (a : Arg) : List Cls :=
  let names := os.flatMap (fun o => o.names.map (fun n => (o, n)))
  match a with
  | '-' :: '-' :: _ =>
    let c := cut a
    (names.filter (fun p => c.1.isPrefixOf p.2)).map (fun p => .opt p.1 p.2 (c.2.map (fun e => (true, e))))
  | _ =>
    names.filterMap (fun p =>
      if p.2 = a.take 2 then some (.opt p.1 p.2 (some (false, a.drop 2)))
      else if a.isPrefixOf p.2 then some (.opt p.1 p.2 none)
      else none)

/-- `-\d+` or `-\d*.\d+`, argparse.py:1386; the argument is what comes after `-`. -/
def isNumber (a : Arg) : Bool :=
  let r := a.dropWhile Char.isDigit
  match r with
  | [] => !a.isEmpty
  | '.' :: r => !r.isEmpty && r.all Char.isDigit
  | _ => false

/-- `_parse_optional`, argparse.py:2243-2298. -/
def classify (os : List Opt) (a : Arg) : Cls :=
  match a with
  | '-' :: r =>
    match findOpt os a with
    | some o => .opt o a none
    | none =>
      if r = [] then .pos
      else
        let known := match (cut a).2 with
          | some e => (findOpt os (cut a).1).map (fun o => Cls.opt o (cut a).1 (some (true, e)))
          | none => none
        match known with
        | some c => c
        | none =>
          match tuples os a with
          | [c] => c
          | _ :: _ :: _ => .ambiguous
          | [] => if isNumber r || a.contains ' ' then .pos else .unknown
  | _ => .pos

def Cls.isPos : Cls → Bool
  | .pos => true
  | _ => false

def Cls.isAmbiguous : Cls → Bool
  | .ambiguous => true
  | _ => false

/-- `_get_value`, argparse.py:2531-2555; `int` is Python's `int`, `none` a `ValueError`. -/
def convert (int : Arg → Option Int) (ty : Ty) (a : Arg) : Except Stop Val :=
  match ty with
  | .str => .ok (.str a)
  | .int => match int a with
    | some n => .ok (.int n)
    | none => .error .usage

/-- All of them. -/
def convertAll (int : Arg → Option Int) (ty : Ty) : List Arg → Except Stop (List Val)
  | [] => .ok []
  | a :: as =>
    match convert int ty a with
    | .error e => .error e
    | .ok v =>
      match convertAll int ty as with
      | .error e => .error e
      | .ok vs => .ok (v :: vs)

/-- The action of an option. -/
def doOpt (int : Arg → Option Int) (ns : Ns) (o : Opt) (a : Option Arg) : Except Stop Ns :=
  match o.kind with
  | .store ty =>
    match a with
    | none => .error .usage
    | some a =>
      match convert int ty a with
      | .error e => .error e
      | .ok v => .ok (ns.set o.dest v)
  | .setTrue => .ok (ns.set o.dest (.bool true))
  | .count =>
    match ns o.dest with
    | some (.int n) => .ok (ns.set o.dest (.int (n + 1)))
    | _ => .ok (ns.set o.dest (.int 1))
  | .exit => .error .shown

/-- Whether an option takes an argument. -/
def Opt.takes (o : Opt) : Bool := match o.kind with | .store _ => true | _ => false

/-- Options to be acted upon: with the argument they are given, with the next argument of the command line, or none. -/
inductive Given where
  | explicit (a : Arg)
  | next
  | nothing

/-- The options which are concatenated in one argument, argparse.py:1996-2052: `o`, called by a name with one dash
if `single`, is followed by `ex` (after `=` if `eq`).  The second part is what goes to the extras. -/
def chain (os : List Opt) (o : Opt) (single eq : Bool) : Arg → Except Stop (List (Opt × Given) × List Arg)
  | [] => if o.takes then .ok ([(o, .explicit [])], []) else .error .usage
  | c :: ex =>
    if o.takes then .ok ([(o, .explicit (c :: ex))], [])
    else if single then
      if eq || c = '-' then .error .usage
      else
        match findOpt os ['-', c] with
        | none => .ok ([(o, .nothing)], ['-' :: c :: ex])
        | some o' =>
          match ex with
          | [] => .ok ([(o, .nothing), (o', if o'.takes then .next else .nothing)], [])
          | d :: ex' =>
            let r := if d = '=' then chain os o' true true ex' else chain os o' true false (d :: ex')
            match r with
            | .error e => .error e
            | .ok (l, x) => .ok ((o, .nothing) :: l, x)
    else .error .usage

/-- The actions for one option argument. -/
def given (os : List Opt) (o : Opt) (name : Arg) (ex : Option (Bool × Arg)) :
    Except Stop (List (Opt × Given) × List Arg) :=
  match ex with
  | none => .ok ([(o, if o.takes then .next else .nothing)], [])
  | some (eq, a) => chain os o (decide (name.take 2 ≠ ['-', '-'])) eq a

/-- `take_action` for each of them.  `next` is the next argument, if it is an `A`. -/
def doAll (int : Arg → Option Int) (ns : Ns) (next : Option Arg) : List (Opt × Given) → Except Stop Ns
  | [] => .ok ns
  | (o, g) :: l =>
    match doOpt int ns o (match g with | .explicit a => some a | .next => next | .nothing => none) with
    | .error e => .error e
    | .ok ns' => doAll int ns' next l

/-- Whether the next argument is taken: it is the last of them if any. -/
def takesNext (l : List (Opt × Given)) : Bool := l.any (fun p => match p.2 with | .next => true | _ => false)

/-- `consume_optional`, argparse.py:1986-2072: the namespace, the extras, and what remains. -/
def consumeOpt (int : Arg → Option Int) (os : List Opt) (ns : Ns) (o : Opt) (name : Arg) (ex : Option (Bool × Arg))
    (rest : List (Arg × Cls)) : Except Stop (Ns × List Arg × List (Arg × Cls)) :=
  match given os o name ex with
  | .error e => .error e
  | .ok (l, x) =>
    if takesNext l then
      match rest with
      | (a, .pos) :: rest' =>
        match doAll int ns (some a) l with
        | .error e => .error e
        | .ok ns' => .ok (ns', x, rest')
      | _ => .error .usage
    else
      match doAll int ns none l with
      | .error e => .error e
      | .ok ns' => .ok (ns', x, rest)

/-- The least number of arguments. -/
def Nargs.least : Nargs → Nat
  | .one | .plus | .parser => 1
  | .opt | .star => 0

/-- How many arguments the positionals take, if there are `n` in a row and `m` before the end, in the order of the
positionals and each as many as possible, `_match_arguments_partial` for one choice of positionals. -/
def counts : List Pos → Nat → Nat → List Nat
  | [], _, _ => []
  | p :: ps, n, m =>
    let spare := n - (ps.map (fun q => q.nargs.least)).sum
    let k := match p.nargs with
      | .one => 1
      | .opt => min 1 spare
      | .star | .plus => spare
      | .parser => m
    k :: counts ps (n - k) (m - k)

/-- `_match_arguments_partial`, argparse.py:2227-2241: as many of the positionals as possible. -/
def fitting (ps : List Pos) (n : Nat) : Nat → Nat
  | 0 => 0
  | i + 1 => if ((ps.take (i + 1)).map (fun q => q.nargs.least)).sum ≤ n then i + 1 else fitting ps n i

/-- What a subcommand does with the rest of the command line. -/
abbrev Sub := Arg → Option (List Arg → Except Stop (Ns × List Arg))

/-- `_check_value`. -/
def allowed (p : Pos) (a : Arg) : Bool := match p.choices with | none => true | some cs => cs.contains a

/-- All attributes of one namespace are set in another. -/
def Ns.update (ns ns' : Ns) : Ns := fun k => (ns' k).or (ns k)

/-- `take_action` for a positional, with `_get_values`, argparse.py:2475-2529, and the call of the parser of a subcommand,
1222-1252; the second part is what this one does not know. -/
def doPos (int : Arg → Option Int) (sub : Sub) (ns : Ns) (p : Pos) (as : List Arg) : Except Stop (Ns × List Arg) :=
  match p.nargs, as with
  | .parser, a :: as =>
    match sub a with
    | none => .error .usage
    | some f =>
      match f as with
      | .error e => .error e
      | .ok (ns', x) => .ok ((ns.set p.dest (.str a)).update ns', x)
  | .parser, [] => .error .usage
  | .opt, [] => .ok (ns.set p.dest p.default, [])
  | .star, [] => .ok (ns.set p.dest (match p.default with | .none => .list [] | v => v), [])
  | .star, as | .plus, as =>
    match convertAll int p.ty as with
    | .error e => .error e
    | .ok vs => if as.all (allowed p) then .ok (ns.set p.dest (.list vs), []) else .error .usage
  | .one, as | .opt, as =>
    match as with
    | [a] =>
      match convert int p.ty a with
      | .error e => .error e
      | .ok v => if allowed p a then .ok (ns.set p.dest v, []) else .error .usage
    | _ => .error .usage

/-- The state of the loop. -/
structure St where
  ns : Ns
  poss : List Pos
  extras : List Arg := []
  /-- `_UNRECOGNIZED_ARGS_ATTR` -/
  unrec : List Arg := []

/-- The actions of the positionals which match. -/
def doPoss (int : Arg → Option Int) (sub : Sub) (s : St) : List (Pos × Nat) → List Arg → Except Stop St
  | [], _ => .ok s
  | (p, k) :: l, as =>
    match doPos int sub s.ns p (as.take k) with
    | .error e => .error e
    | .ok (ns, x) => doPoss int sub { s with ns := ns, unrec := s.unrec ++ x } l (as.drop k)

/-- `consume_positionals`, argparse.py:2076-2093: the state and the number of arguments consumed. -/
def consumePos (int : Arg → Option Int) (sub : Sub) (s : St) (rem : List (Arg × Cls)) : Except Stop (St × Nat) :=
  let n := (rem.takeWhile (fun p => p.2.isPos)).length
  let k := fitting s.poss n s.poss.length
  let now := s.poss.take k
  let cs := counts now n rem.length
  match doPoss int sub s (now.zip cs) (rem.map (·.1)) with
  | .error e => .error e
  | .ok s' => .ok ({ s' with poss := s.poss.drop k }, cs.sum)

/-- The loop, argparse.py:2097-2140.  Every round consumes an argument, so the number of rounds is at most the length
of the command line. -/
def loop (int : Arg → Option Int) (sub : Sub) (os : List Opt) : Nat → St → List (Arg × Cls) → Except Stop St
  | 0, s, _ => .ok s
  | f + 1, s, rem =>
    if rem.all (fun p => p.2.isPos) then
      match consumePos int sub s rem with
      | .error e => .error e
      | .ok (s', k) => .ok { s' with extras := s'.extras ++ (rem.drop k).map (·.1) }
    else
      match rem with
      | [] => .ok s
      | (_, .opt o name ex) :: rest =>
        match consumeOpt int os s.ns o name ex rest with
        | .error e => .error e
        | .ok (ns, x, rest') => loop int sub os f { s with ns := ns, extras := s.extras ++ x } rest'
      | (a, .unknown) :: rest | (a, .ambiguous) :: rest =>
        loop int sub os f { s with extras := s.extras ++ [a] } rest
      | (_, .pos) :: _ =>
        match consumePos int sub s rem with
        | .error e => .error e
        | .ok (s', k) =>
          if k = 0 then
            let as := rem.takeWhile (fun p => p.2.isPos)
            loop int sub os f { s' with extras := s'.extras ++ as.map (·.1) } (rem.drop as.length)
          else loop int sub os f s' (rem.drop k)

/-- The defaults which are not there yet, argparse.py:1892-1903. -/
def Ns.addDefaults (ns : Ns) : List (String × Val) → Ns
  | [] => ns
  | (k, v) :: l => (if (ns k).isSome then ns else ns.set k v).addDefaults l

def Parser.allDefaults (p : Parser) : List (String × Val) :=
  (p.opts.filterMap (fun o => if o.kind = .exit then none else some (o.dest, o.default))) ++
    p.poss.map (fun q => (q.dest, q.default)) ++ p.defaults

/-- `parse_known_args`, argparse.py:1880-1916: the namespace, and the arguments nobody knows. -/
def parseKnown (int : Arg → Option Int) (sub : Sub) (p : Parser) (ns : Ns) (args : List Arg) :
    Except Stop (Ns × List Arg) :=
  if args.contains ['-', '-'] then .error .dashes
  else
    let rem := args.map (fun a => (a, classify p.opts a))
    if rem.any (fun q => q.2.isAmbiguous) then .error .usage
    else
      match loop int sub p.opts (args.length + 1) { ns := ns.addDefaults p.allDefaults, poss := p.poss } rem with
      | .error e => .error e
      | .ok s =>
        if s.poss.any (fun q => decide (q.nargs.least > 0)) then .error .usage
        else .ok (s.ns, s.extras ++ s.unrec)

/-- A parser without subcommands. -/
def noSub : Sub := fun _ => none

end Tomato.Args
