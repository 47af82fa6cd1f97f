/-!
# The preprocessor on `CONFIGOR_BIND`

Macro replacement as C++ defines it ([cpp.replace]), in the formulation with hide sets (D. Prosser's algorithm, from which the words of the
standard were derived), and the macros of conversion.hpp:542-832. White space between tokens is not modelled.
-/
set_option autoImplicit false

namespace Configor.Preproc

/-- The spelling of a preprocessing token: a name, a number, a string literal or a punctuator. -/
abbrev Text := List Nat

/-- `text! "ab"` stands for the list of the characters, `[0x61, 0x62]`. -/
macro "text!" s:str : term => do
  let cs : Array (Lean.TSyntax `term) := (s.getString.toList.map fun c => (Lean.Syntax.mkNumLit (toString c.toNat) : Lean.TSyntax `term)).toArray
  `(([$cs,*] : List Nat))

abbrev lparen : Text := [0x28]
abbrev rparen : Text := [0x29]
abbrev comma : Text := [0x2C]
abbrev hash : Text := [0x23]
abbrev hashhash : Text := [0x23, 0x23]
abbrev ellipsis : Text := [0x2E, 0x2E, 0x2E]
/-- `__VA_ARGS__` -/
abbrev vaArgs : Text := text! "__VA_ARGS__"

/-- A character of names and numbers. -/
def wordChar (c : Nat) : Bool :=
  (0x30 ≤ c && c ≤ 0x39) || (0x41 ≤ c && c ≤ 0x5A) || (0x61 ≤ c && c ≤ 0x7A) || c == 0x5F

/-- The tokens of a line of source text ([lex.pptoken]), as far as conversion.hpp uses them: words, `##`, `...` and other characters, each a
token of its own. `word` is the word that is being read. -/
def tokens (word : Text) : List Nat → List Text
  | [] => if word = [] then [] else [word]
  | 0x23 :: 0x23 :: cs => (if word = [] then [] else [word]) ++ hashhash :: tokens [] cs
  | 0x2E :: 0x2E :: 0x2E :: cs => (if word = [] then [] else [word]) ++ ellipsis :: tokens [] cs
  | c :: cs =>
    if wordChar c then tokens (word ++ [c]) cs
    else (if word = [] then [] else [word]) ++ (if c = 0x20 then tokens [] cs else [c] :: tokens [] cs)

/-- `toks! "a b"` stands for the tokens of the line. -/
macro "toks!" s:str : term => `(tokens [] (text! $s))

/-- A macro: its parameters (`none` for one without parentheses), whether `...` follows them, and its replacement list. -/
structure Macro where
  params : Option (List Text)
  variadic : Bool
  body : List Text
deriving DecidableEq

/-- The parameter list of a `#define`, behind the opening parenthesis. -/
def parameters : List Text → List Text × Bool × List Text
  | [] => ([], false, [])
  | t :: ts =>
    if t = rparen then ([], false, ts)
    else if t = comma then parameters ts
    else if t = ellipsis then
      let (ps, _, body) := parameters ts
      (ps, true, body)
    else
      let (ps, v, body) := parameters ts
      (t :: ps, v, body)

/-- A `#define` of a macro with parentheses ([cpp.replace]/10), given by what follows the word `#define`. -/
def define (s : List Nat) : Text × Macro :=
  match tokens [] s with
  | name :: _ :: ts =>
    let (ps, v, body) := parameters ts
    (name, ⟨some ps, v, body⟩)
  | _ => ([], ⟨none, false, []⟩)

/-- A token with its hide set: the macros from whose replacement it stems, which it does not invoke again ([cpp.rescan]/2). -/
structure Tok where
  text : Text
  hide : List Text
deriving DecidableEq

/-- The arguments of a call, behind the opening parenthesis ([cpp.replace]/11): separated by commas outside of
inner parentheses. `d` is the number of inner parentheses that are open, `cur` the argument so far. The result has the
arguments, the closing parenthesis and what follows it. -/
def collect : Nat → List Tok → List Tok → Option (List (List Tok) × Tok × List Tok)
  | _, _, [] => none
  | d, cur, t :: ts =>
    if t.text = lparen then collect (d + 1) (cur ++ [t]) ts
    else if t.text = rparen then
      match d with
      | 0 => some ([cur], t, ts)
      | d + 1 => collect d (cur ++ [t]) ts
    else if t.text = comma ∧ d = 0 then
      (collect 0 [] ts).map fun (as, r) => (cur :: as, r)
    else collect d (cur ++ [t]) ts

/-- The arguments with commas between them. -/
def commas {α : Type} (c : α) : List (List α) → List α
  | [] => []
  | [a] => a
  | a :: as => a ++ c :: commas c as

/-- The argument of each parameter ([cpp.replace]/4, /12); `__VA_ARGS__` is the parameter for the arguments behind the named ones. `none`: the
number of arguments is wrong. -/
def bindArgs {α : Type} (c : α) (ps : List Text) (variadic : Bool) (args : List (List α)) : Option (List (Text × List α)) :=
  if variadic then
    if ps.length ≤ args.length then some (ps.zip args ++ [(vaArgs, commas c (args.drop ps.length))]) else none
  else if ps.length = args.length then some (ps.zip args) else none

/-- The argument of the parameter `p`. -/
def argOf {α : Type} (env : List (Text × List α)) (p : Text) : Option (List α) :=
  (env.find? fun e => e.1 = p).map (·.2)

/-- The string literal for the `#` operator ([cpp.stringize]). Simplified: white space between the tokens of the
argument is lost, and quotes and backslashes in it are not escaped. -/
def stringize (a : List Text) : Text := 0x22 :: (a.flatten ++ [0x22])

/-- An operand of `##`: an empty argument becomes a placemarker ([cpp.concat]/2), here a token without characters. -/
def operand {α : Type} (placemarker : α) (a : List α) : List α := if a = [] then [placemarker] else a

/-- The `##` operator ([cpp.concat]/3) on the last token of `out` and the first of `a`. `none`: the result is no token.
Simplified: only names and numbers are put together. -/
def glue (out a : List Tok) : Option (List Tok) :=
  match out.getLast?, a with
  | some l, r :: rs =>
    if (l.text ++ r.text).all wordChar || l.text = [] || r.text = [] then
      some (out.dropLast ++ ⟨l.text ++ r.text, l.hide.filter (· ∈ r.hide)⟩ :: rs)
    else none
  | _, _ => none

/-- The replacement list with the arguments put in ([cpp.subst]): those next to `#` and `##` as they are, the others
after complete macro replacement, `ex`. -/
def subst (ex : List Tok → Option (List Tok)) (env : List (Text × List Tok)) : List Text → List Tok → Option (List Tok)
  | [], out => some out
  | [t], out =>
    match argOf env t with
    | none => some (out ++ [⟨t, []⟩])
    | some a => (ex a).map (out ++ ·)
  | t :: p :: rest, out =>
    if t = hash then
      match argOf env p with
      | none => none
      | some a => subst ex env rest (out ++ [⟨stringize (a.map (·.text)), []⟩])
    else if t = hashhash then
      match glue out (operand ⟨[], []⟩ ((argOf env p).getD [⟨p, []⟩])) with
      | none => none
      | some out => subst ex env rest out
    else
      match argOf env t with
      | none => subst ex env (p :: rest) (out ++ [⟨t, []⟩])
      | some a =>
        if p = hashhash then subst ex env (p :: rest) (out ++ operand ⟨[], []⟩ a)
        else
          match ex a with
          | none => none
          | some x => subst ex env (p :: rest) (out ++ x)

/-- The names `hs` are added to the hide sets; placemarkers are removed ([cpp.concat]/3). -/
def hsadd (hs : List Text) (ts : List Tok) : List Tok :=
  (ts.filter fun t => t.text ≠ []).map fun t => ⟨t.text, t.hide ++ hs⟩

/-- Macro replacement ([cpp.replace], [cpp.rescan]) on the tokens of a file, for the macros `T`. The number bounds the
steps; `none`: it did not suffice or the file is ill-formed. -/
def expand (T : Text → Option Macro) : Nat → List Tok → Option (List Tok)
  | 0, _ => none
  | _ + 1, [] => some []
  | n + 1, t :: ts =>
    match if t.text ∈ t.hide then none else T t.text with
    | none => (expand T n ts).map (t :: ·)
    | some m =>
      match m.params with
      | none =>
        match subst (expand T n) [] m.body [] with
        | none => none
        | some body => expand T n (hsadd (t.text :: t.hide) body ++ ts)
      | some ps =>
        match ts with
        | [] => some [t]
        | l :: ts =>
          if l.text = lparen then
            match collect 0 [] ts with
            | none => none
            | some (args, close, rest) =>
              match bindArgs ⟨comma, []⟩ ps m.variadic args with
              | none => none
              | some env =>
                match subst (expand T n) env m.body [] with
                | none => none
                | some body => expand T n (hsadd (t.text :: t.hide.filter (· ∈ close.hide)) body ++ rest)
          else (expand T n (l :: ts)).map (t :: ·)

/-! ## The macros of conversion.hpp

What follows the word `#define`, without the line breaks. -/

set_option maxRecDepth 10000

/-- conversion.hpp:542. -/
def m_EXPAND : List Nat := text! "__CONFIGOR_EXPAND(x) x"

/-- conversion.hpp:544. -/
def m_COMBINE_INNER : List Nat := text! "__CONFIGOR_COMBINE_INNER(a, b) a##b"

/-- conversion.hpp:545. -/
def m_COMBINE : List Nat := text! "__CONFIGOR_COMBINE(a, b) __CONFIGOR_COMBINE_INNER(a, b)"

/-- conversion.hpp:547-550. -/
def m_GET_ARG_MAX50 : List Nat := text! "__CONFIGOR_GET_ARG_MAX50(_1, _2, _3, _4, _5, _6, _7, _8, _9, _10, _11, _12, _13, _14, _15, _16, _17, \
      _18, _19, _20, _21, _22, _23, _24, _25, _26, _27, _28, _29, _30, _31, _32, _33, _34, _35, _36, _37, \
      _38, _39, _40, _41, _42, _43, _44, _45, _46, _47, _48, _49, _50, ARG, ...) ARG"

/-- conversion.hpp:552-555. -/
def m_COUNT_ARGS_MAX50 : List Nat := text! "__CONFIGOR_COUNT_ARGS_MAX50(...) __CONFIGOR_EXPAND(__CONFIGOR_GET_ARG_MAX50(__VA_ARGS__, 50, 49, 48, \
      47, 46, 45, 44, 43, 42, 41, 40, 39, 38, 37, 36, 35, 34, 33, 32, 31, 30, 29, 28, 27, 26, 25, 24, 23, \
      22, 21, 20, 19, 18, 17, 16, 15, 14, 13, 12, 11, 10, 9, 8, 7, 6, 5, 4, 3, 2, 1, 0))"

/-- conversion.hpp:557-558. -/
def m_CALL_OVERLOAD : List Nat := text! "__CONFIGOR_CALL_OVERLOAD(name, ...) __CONFIGOR_EXPAND(__CONFIGOR_COMBINE(name, \
      __CONFIGOR_COUNT_ARGS_MAX50(__VA_ARGS__))(__VA_ARGS__))"

/-- conversion.hpp:560-572. -/
def m_PASTE : List Nat := text! "__CONFIGOR_PASTE(parse1, func, ...) __CONFIGOR_EXPAND(__CONFIGOR_GET_ARG_MAX50( __VA_ARGS__, \
      __CONFIGOR_PASTE50, __CONFIGOR_PASTE49, __CONFIGOR_PASTE48, __CONFIGOR_PASTE47, __CONFIGOR_PASTE46, \
      __CONFIGOR_PASTE45, __CONFIGOR_PASTE44, __CONFIGOR_PASTE43, __CONFIGOR_PASTE42, __CONFIGOR_PASTE41, \
      __CONFIGOR_PASTE40, __CONFIGOR_PASTE39, __CONFIGOR_PASTE38, __CONFIGOR_PASTE37, __CONFIGOR_PASTE36, \
      __CONFIGOR_PASTE35, __CONFIGOR_PASTE34, __CONFIGOR_PASTE33, __CONFIGOR_PASTE32, __CONFIGOR_PASTE31, \
      __CONFIGOR_PASTE30, __CONFIGOR_PASTE29, __CONFIGOR_PASTE28, __CONFIGOR_PASTE27, __CONFIGOR_PASTE26, \
      __CONFIGOR_PASTE25, __CONFIGOR_PASTE24, __CONFIGOR_PASTE23, __CONFIGOR_PASTE22, __CONFIGOR_PASTE21, \
      __CONFIGOR_PASTE20, __CONFIGOR_PASTE19, __CONFIGOR_PASTE18, __CONFIGOR_PASTE17, __CONFIGOR_PASTE16, \
      __CONFIGOR_PASTE15, __CONFIGOR_PASTE14, __CONFIGOR_PASTE13, __CONFIGOR_PASTE12, __CONFIGOR_PASTE11, \
      __CONFIGOR_PASTE10, __CONFIGOR_PASTE9, __CONFIGOR_PASTE8, __CONFIGOR_PASTE7, __CONFIGOR_PASTE6, \
      __CONFIGOR_PASTE5, __CONFIGOR_PASTE4, __CONFIGOR_PASTE3, __CONFIGOR_PASTE2, parse1)(parse1, func, \
      __VA_ARGS__))"

/-- conversion.hpp:574. -/
def m_COMBINE_PASTE1 : List Nat := text! "__CONFIGOR_COMBINE_PASTE1(parse1, func, _1) func##_1"

/-- conversion.hpp:575. -/
def m_CALL_PASTE1 : List Nat := text! "__CONFIGOR_CALL_PASTE1(parse1, func, _1) func(_1)"

/-- conversion.hpp:577. -/
def m_PASTE2 : List Nat := text! "__CONFIGOR_PASTE2(parse1, func, _1, _2) parse1(parse1, func, _1) parse1(parse1, func, _2)"

/-- conversion.hpp:578. -/
def m_PASTE3 : List Nat := text! "__CONFIGOR_PASTE3(parse1, func, _1, _2, _3) parse1(parse1, func, _1) __CONFIGOR_PASTE2(parse1, func, \
      _2, _3)"

/-- conversion.hpp:579-580. -/
def m_PASTE4 : List Nat := text! "__CONFIGOR_PASTE4(parse1, func, _1, _2, _3, _4) parse1(parse1, func, _1) __CONFIGOR_PASTE3(parse1, \
      func, _2, _3, _4)"

/-- conversion.hpp:581-582. -/
def m_PASTE5 : List Nat := text! "__CONFIGOR_PASTE5(parse1, func, _1, _2, _3, _4, _5) parse1(parse1, func, _1) \
      __CONFIGOR_PASTE4(parse1, func, _2, _3, _4, _5)"

/-- conversion.hpp:583-584. -/
def m_PASTE6 : List Nat := text! "__CONFIGOR_PASTE6(parse1, func, _1, _2, _3, _4, _5, _6) parse1(parse1, func, _1) \
      __CONFIGOR_PASTE5(parse1, func, _2, _3, _4, _5, _6)"

/-- conversion.hpp:585-586. -/
def m_PASTE7 : List Nat := text! "__CONFIGOR_PASTE7(parse1, func, _1, _2, _3, _4, _5, _6, _7) parse1(parse1, func, _1) \
      __CONFIGOR_PASTE6(parse1, func, _2, _3, _4, _5, _6, _7)"

/-- conversion.hpp:587-588. -/
def m_PASTE8 : List Nat := text! "__CONFIGOR_PASTE8(parse1, func, _1, _2, _3, _4, _5, _6, _7, _8) parse1(parse1, func, _1) \
      __CONFIGOR_PASTE7(parse1, func, _2, _3, _4, _5, _6, _7, _8)"

/-- conversion.hpp:589-590. -/
def m_PASTE9 : List Nat := text! "__CONFIGOR_PASTE9(parse1, func, _1, _2, _3, _4, _5, _6, _7, _8, _9) parse1(parse1, func, _1) \
      __CONFIGOR_PASTE8(parse1, func, _2, _3, _4, _5, _6, _7, _8, _9)"

/-- conversion.hpp:591-592. -/
def m_PASTE10 : List Nat := text! "__CONFIGOR_PASTE10(parse1, func, _1, _2, _3, _4, _5, _6, _7, _8, _9, _10) parse1(parse1, func, _1) \
      __CONFIGOR_PASTE9(parse1, func, _2, _3, _4, _5, _6, _7, _8, _9, _10)"

/-- conversion.hpp:593-594. -/
def m_PASTE11 : List Nat := text! "__CONFIGOR_PASTE11(parse1, func, _1, _2, _3, _4, _5, _6, _7, _8, _9, _10, _11) parse1(parse1, func, \
      _1) __CONFIGOR_PASTE10(parse1, func, _2, _3, _4, _5, _6, _7, _8, _9, _10, _11)"

/-- conversion.hpp:595-596. -/
def m_PASTE12 : List Nat := text! "__CONFIGOR_PASTE12(parse1, func, _1, _2, _3, _4, _5, _6, _7, _8, _9, _10, _11, _12) parse1(parse1, \
      func, _1) __CONFIGOR_PASTE11(parse1, func, _2, _3, _4, _5, _6, _7, _8, _9, _10, _11, _12)"

/-- conversion.hpp:597-598. -/
def m_PASTE13 : List Nat := text! "__CONFIGOR_PASTE13(parse1, func, _1, _2, _3, _4, _5, _6, _7, _8, _9, _10, _11, _12, _13) \
      parse1(parse1, func, _1) __CONFIGOR_PASTE12(parse1, func, _2, _3, _4, _5, _6, _7, _8, _9, _10, _11, \
      _12, _13)"

/-- conversion.hpp:599-600. -/
def m_PASTE14 : List Nat := text! "__CONFIGOR_PASTE14(parse1, func, _1, _2, _3, _4, _5, _6, _7, _8, _9, _10, _11, _12, _13, _14) \
      parse1(parse1, func, _1) __CONFIGOR_PASTE13(parse1, func, _2, _3, _4, _5, _6, _7, _8, _9, _10, _11, \
      _12, _13, _14)"

/-- conversion.hpp:601-603. -/
def m_PASTE15 : List Nat := text! "__CONFIGOR_PASTE15(parse1, func, _1, _2, _3, _4, _5, _6, _7, _8, _9, _10, _11, _12, _13, _14, _15) \
      parse1(parse1, func, _1) __CONFIGOR_PASTE14(parse1, func, _2, _3, _4, _5, _6, _7, _8, _9, _10, _11, \
      _12, _13, _14, _15)"

/-- conversion.hpp:604-606. -/
def m_PASTE16 : List Nat := text! "__CONFIGOR_PASTE16(parse1, func, _1, _2, _3, _4, _5, _6, _7, _8, _9, _10, _11, _12, _13, _14, _15, \
      _16) parse1(parse1, func, _1) __CONFIGOR_PASTE15(parse1, func, _2, _3, _4, _5, _6, _7, _8, _9, _10, \
      _11, _12, _13, _14, _15, _16)"

/-- conversion.hpp:607-609. -/
def m_PASTE17 : List Nat := text! "__CONFIGOR_PASTE17(parse1, func, _1, _2, _3, _4, _5, _6, _7, _8, _9, _10, _11, _12, _13, _14, _15, \
      _16, _17) parse1(parse1, func, _1) __CONFIGOR_PASTE16(parse1, func, _2, _3, _4, _5, _6, _7, _8, _9, \
      _10, _11, _12, _13, _14, _15, _16, _17)"

/-- conversion.hpp:610-613. -/
def m_PASTE18 : List Nat := text! "__CONFIGOR_PASTE18(parse1, func, _1, _2, _3, _4, _5, _6, _7, _8, _9, _10, _11, _12, _13, _14, _15, \
      _16, _17, _18) parse1(parse1, func, _1) __CONFIGOR_PASTE17(parse1, func, _2, _3, _4, _5, _6, _7, _8, \
      _9, _10, _11, _12, _13, _14, _15, _16, _17, _18)"

/-- conversion.hpp:614-617. -/
def m_PASTE19 : List Nat := text! "__CONFIGOR_PASTE19(parse1, func, _1, _2, _3, _4, _5, _6, _7, _8, _9, _10, _11, _12, _13, _14, _15, \
      _16, _17, _18, _19) parse1(parse1, func, _1) __CONFIGOR_PASTE18(parse1, func, _2, _3, _4, _5, _6, \
      _7, _8, _9, _10, _11, _12, _13, _14, _15, _16, _17, _18, _19)"

/-- conversion.hpp:618-621. -/
def m_PASTE20 : List Nat := text! "__CONFIGOR_PASTE20(parse1, func, _1, _2, _3, _4, _5, _6, _7, _8, _9, _10, _11, _12, _13, _14, _15, \
      _16, _17, _18, _19, _20) parse1(parse1, func, _1) __CONFIGOR_PASTE19(parse1, func, _2, _3, _4, _5, \
      _6, _7, _8, _9, _10, _11, _12, _13, _14, _15, _16, _17, _18, _19, _20)"

/-- conversion.hpp:622-625. -/
def m_PASTE21 : List Nat := text! "__CONFIGOR_PASTE21(parse1, func, _1, _2, _3, _4, _5, _6, _7, _8, _9, _10, _11, _12, _13, _14, _15, \
      _16, _17, _18, _19, _20, _21) parse1(parse1, func, _1) __CONFIGOR_PASTE20(parse1, func, _2, _3, _4, \
      _5, _6, _7, _8, _9, _10, _11, _12, _13, _14, _15, _16, _17, _18, _19, _20, _21)"

/-- conversion.hpp:626-629. -/
def m_PASTE22 : List Nat := text! "__CONFIGOR_PASTE22(parse1, func, _1, _2, _3, _4, _5, _6, _7, _8, _9, _10, _11, _12, _13, _14, _15, \
      _16, _17, _18, _19, _20, _21, _22) parse1(parse1, func, _1) __CONFIGOR_PASTE21(parse1, func, _2, _3, \
      _4, _5, _6, _7, _8, _9, _10, _11, _12, _13, _14, _15, _16, _17, _18, _19, _20, _21, _22)"

/-- conversion.hpp:630-633. -/
def m_PASTE23 : List Nat := text! "__CONFIGOR_PASTE23(parse1, func, _1, _2, _3, _4, _5, _6, _7, _8, _9, _10, _11, _12, _13, _14, _15, \
      _16, _17, _18, _19, _20, _21, _22, _23) parse1(parse1, func, _1) __CONFIGOR_PASTE22(parse1, func, \
      _2, _3, _4, _5, _6, _7, _8, _9, _10, _11, _12, _13, _14, _15, _16, _17, _18, _19, _20, _21, _22, \
      _23)"

/-- conversion.hpp:634-637. -/
def m_PASTE24 : List Nat := text! "__CONFIGOR_PASTE24(parse1, func, _1, _2, _3, _4, _5, _6, _7, _8, _9, _10, _11, _12, _13, _14, _15, \
      _16, _17, _18, _19, _20, _21, _22, _23, _24) parse1(parse1, func, _1) __CONFIGOR_PASTE23(parse1, \
      func, _2, _3, _4, _5, _6, _7, _8, _9, _10, _11, _12, _13, _14, _15, _16, _17, _18, _19, _20, _21, \
      _22, _23, _24)"

/-- conversion.hpp:638-641. -/
def m_PASTE25 : List Nat := text! "__CONFIGOR_PASTE25(parse1, func, _1, _2, _3, _4, _5, _6, _7, _8, _9, _10, _11, _12, _13, _14, _15, \
      _16, _17, _18, _19, _20, _21, _22, _23, _24, _25) parse1(parse1, func, _1) \
      __CONFIGOR_PASTE24(parse1, func, _2, _3, _4, _5, _6, _7, _8, _9, _10, _11, _12, _13, _14, _15, _16, \
      _17, _18, _19, _20, _21, _22, _23, _24, _25)"

/-- conversion.hpp:642-645. -/
def m_PASTE26 : List Nat := text! "__CONFIGOR_PASTE26(parse1, func, _1, _2, _3, _4, _5, _6, _7, _8, _9, _10, _11, _12, _13, _14, _15, \
      _16, _17, _18, _19, _20, _21, _22, _23, _24, _25, _26) parse1(parse1, func, _1) \
      __CONFIGOR_PASTE25(parse1, func, _2, _3, _4, _5, _6, _7, _8, _9, _10, _11, _12, _13, _14, _15, _16, \
      _17, _18, _19, _20, _21, _22, _23, _24, _25, _26)"

/-- conversion.hpp:646-649. -/
def m_PASTE27 : List Nat := text! "__CONFIGOR_PASTE27(parse1, func, _1, _2, _3, _4, _5, _6, _7, _8, _9, _10, _11, _12, _13, _14, _15, \
      _16, _17, _18, _19, _20, _21, _22, _23, _24, _25, _26, _27) parse1(parse1, func, _1) \
      __CONFIGOR_PASTE26(parse1, func, _2, _3, _4, _5, _6, _7, _8, _9, _10, _11, _12, _13, _14, _15, _16, \
      _17, _18, _19, _20, _21, _22, _23, _24, _25, _26, _27)"

/-- conversion.hpp:650-653. -/
def m_PASTE28 : List Nat := text! "__CONFIGOR_PASTE28(parse1, func, _1, _2, _3, _4, _5, _6, _7, _8, _9, _10, _11, _12, _13, _14, _15, \
      _16, _17, _18, _19, _20, _21, _22, _23, _24, _25, _26, _27, _28) parse1(parse1, func, _1) \
      __CONFIGOR_PASTE27(parse1, func, _2, _3, _4, _5, _6, _7, _8, _9, _10, _11, _12, _13, _14, _15, _16, \
      _17, _18, _19, _20, _21, _22, _23, _24, _25, _26, _27, _28)"

/-- conversion.hpp:654-658. -/
def m_PASTE29 : List Nat := text! "__CONFIGOR_PASTE29(parse1, func, _1, _2, _3, _4, _5, _6, _7, _8, _9, _10, _11, _12, _13, _14, _15, \
      _16, _17, _18, _19, _20, _21, _22, _23, _24, _25, _26, _27, _28, _29) parse1(parse1, func, _1) \
      __CONFIGOR_PASTE28(parse1, func, _2, _3, _4, _5, _6, _7, _8, _9, _10, _11, _12, _13, _14, _15, _16, \
      _17, _18, _19, _20, _21, _22, _23, _24, _25, _26, _27, _28, _29)"

/-- conversion.hpp:659-663. -/
def m_PASTE30 : List Nat := text! "__CONFIGOR_PASTE30(parse1, func, _1, _2, _3, _4, _5, _6, _7, _8, _9, _10, _11, _12, _13, _14, _15, \
      _16, _17, _18, _19, _20, _21, _22, _23, _24, _25, _26, _27, _28, _29, _30) parse1(parse1, func, _1) \
      __CONFIGOR_PASTE29(parse1, func, _2, _3, _4, _5, _6, _7, _8, _9, _10, _11, _12, _13, _14, _15, _16, \
      _17, _18, _19, _20, _21, _22, _23, _24, _25, _26, _27, _28, _29, _30)"

/-- conversion.hpp:664-668. -/
def m_PASTE31 : List Nat := text! "__CONFIGOR_PASTE31(parse1, func, _1, _2, _3, _4, _5, _6, _7, _8, _9, _10, _11, _12, _13, _14, _15, \
      _16, _17, _18, _19, _20, _21, _22, _23, _24, _25, _26, _27, _28, _29, _30, _31) parse1(parse1, func, \
      _1) __CONFIGOR_PASTE30(parse1, func, _2, _3, _4, _5, _6, _7, _8, _9, _10, _11, _12, _13, _14, _15, \
      _16, _17, _18, _19, _20, _21, _22, _23, _24, _25, _26, _27, _28, _29, _30, _31)"

/-- conversion.hpp:669-673. -/
def m_PASTE32 : List Nat := text! "__CONFIGOR_PASTE32(parse1, func, _1, _2, _3, _4, _5, _6, _7, _8, _9, _10, _11, _12, _13, _14, _15, \
      _16, _17, _18, _19, _20, _21, _22, _23, _24, _25, _26, _27, _28, _29, _30, _31, _32) parse1(parse1, \
      func, _1) __CONFIGOR_PASTE31(parse1, func, _2, _3, _4, _5, _6, _7, _8, _9, _10, _11, _12, _13, _14, \
      _15, _16, _17, _18, _19, _20, _21, _22, _23, _24, _25, _26, _27, _28, _29, _30, _31, _32)"

/-- conversion.hpp:674-678. -/
def m_PASTE33 : List Nat := text! "__CONFIGOR_PASTE33(parse1, func, _1, _2, _3, _4, _5, _6, _7, _8, _9, _10, _11, _12, _13, _14, _15, \
      _16, _17, _18, _19, _20, _21, _22, _23, _24, _25, _26, _27, _28, _29, _30, _31, _32, _33) \
      parse1(parse1, func, _1) __CONFIGOR_PASTE32(parse1, func, _2, _3, _4, _5, _6, _7, _8, _9, _10, _11, \
      _12, _13, _14, _15, _16, _17, _18, _19, _20, _21, _22, _23, _24, _25, _26, _27, _28, _29, _30, _31, \
      _32, _33)"

/-- conversion.hpp:679-683. -/
def m_PASTE34 : List Nat := text! "__CONFIGOR_PASTE34(parse1, func, _1, _2, _3, _4, _5, _6, _7, _8, _9, _10, _11, _12, _13, _14, _15, \
      _16, _17, _18, _19, _20, _21, _22, _23, _24, _25, _26, _27, _28, _29, _30, _31, _32, _33, _34) \
      parse1(parse1, func, _1) __CONFIGOR_PASTE33(parse1, func, _2, _3, _4, _5, _6, _7, _8, _9, _10, _11, \
      _12, _13, _14, _15, _16, _17, _18, _19, _20, _21, _22, _23, _24, _25, _26, _27, _28, _29, _30, _31, \
      _32, _33, _34)"

/-- conversion.hpp:684-688. -/
def m_PASTE35 : List Nat := text! "__CONFIGOR_PASTE35(parse1, func, _1, _2, _3, _4, _5, _6, _7, _8, _9, _10, _11, _12, _13, _14, _15, \
      _16, _17, _18, _19, _20, _21, _22, _23, _24, _25, _26, _27, _28, _29, _30, _31, _32, _33, _34, _35) \
      parse1(parse1, func, _1) __CONFIGOR_PASTE34(parse1, func, _2, _3, _4, _5, _6, _7, _8, _9, _10, _11, \
      _12, _13, _14, _15, _16, _17, _18, _19, _20, _21, _22, _23, _24, _25, _26, _27, _28, _29, _30, _31, \
      _32, _33, _34, _35)"

/-- conversion.hpp:689-694. -/
def m_PASTE36 : List Nat := text! "__CONFIGOR_PASTE36(parse1, func, _1, _2, _3, _4, _5, _6, _7, _8, _9, _10, _11, _12, _13, _14, _15, \
      _16, _17, _18, _19, _20, _21, _22, _23, _24, _25, _26, _27, _28, _29, _30, _31, _32, _33, _34, _35, \
      _36) parse1(parse1, func, _1) __CONFIGOR_PASTE35(parse1, func, _2, _3, _4, _5, _6, _7, _8, _9, _10, \
      _11, _12, _13, _14, _15, _16, _17, _18, _19, _20, _21, _22, _23, _24, _25, _26, _27, _28, _29, _30, \
      _31, _32, _33, _34, _35, _36)"

/-- conversion.hpp:695-700. -/
def m_PASTE37 : List Nat := text! "__CONFIGOR_PASTE37(parse1, func, _1, _2, _3, _4, _5, _6, _7, _8, _9, _10, _11, _12, _13, _14, _15, \
      _16, _17, _18, _19, _20, _21, _22, _23, _24, _25, _26, _27, _28, _29, _30, _31, _32, _33, _34, _35, \
      _36, _37) parse1(parse1, func, _1) __CONFIGOR_PASTE36(parse1, func, _2, _3, _4, _5, _6, _7, _8, _9, \
      _10, _11, _12, _13, _14, _15, _16, _17, _18, _19, _20, _21, _22, _23, _24, _25, _26, _27, _28, _29, \
      _30, _31, _32, _33, _34, _35, _36, _37)"

/-- conversion.hpp:701-706. -/
def m_PASTE38 : List Nat := text! "__CONFIGOR_PASTE38(parse1, func, _1, _2, _3, _4, _5, _6, _7, _8, _9, _10, _11, _12, _13, _14, _15, \
      _16, _17, _18, _19, _20, _21, _22, _23, _24, _25, _26, _27, _28, _29, _30, _31, _32, _33, _34, _35, \
      _36, _37, _38) parse1(parse1, func, _1) __CONFIGOR_PASTE37(parse1, func, _2, _3, _4, _5, _6, _7, _8, \
      _9, _10, _11, _12, _13, _14, _15, _16, _17, _18, _19, _20, _21, _22, _23, _24, _25, _26, _27, _28, \
      _29, _30, _31, _32, _33, _34, _35, _36, _37, _38)"

/-- conversion.hpp:707-712. -/
def m_PASTE39 : List Nat := text! "__CONFIGOR_PASTE39(parse1, func, _1, _2, _3, _4, _5, _6, _7, _8, _9, _10, _11, _12, _13, _14, _15, \
      _16, _17, _18, _19, _20, _21, _22, _23, _24, _25, _26, _27, _28, _29, _30, _31, _32, _33, _34, _35, \
      _36, _37, _38, _39) parse1(parse1, func, _1) __CONFIGOR_PASTE38(parse1, func, _2, _3, _4, _5, _6, \
      _7, _8, _9, _10, _11, _12, _13, _14, _15, _16, _17, _18, _19, _20, _21, _22, _23, _24, _25, _26, \
      _27, _28, _29, _30, _31, _32, _33, _34, _35, _36, _37, _38, _39)"

/-- conversion.hpp:713-718. -/
def m_PASTE40 : List Nat := text! "__CONFIGOR_PASTE40(parse1, func, _1, _2, _3, _4, _5, _6, _7, _8, _9, _10, _11, _12, _13, _14, _15, \
      _16, _17, _18, _19, _20, _21, _22, _23, _24, _25, _26, _27, _28, _29, _30, _31, _32, _33, _34, _35, \
      _36, _37, _38, _39, _40) parse1(parse1, func, _1) __CONFIGOR_PASTE39(parse1, func, _2, _3, _4, _5, \
      _6, _7, _8, _9, _10, _11, _12, _13, _14, _15, _16, _17, _18, _19, _20, _21, _22, _23, _24, _25, _26, \
      _27, _28, _29, _30, _31, _32, _33, _34, _35, _36, _37, _38, _39, _40)"

/-- conversion.hpp:719-724. -/
def m_PASTE41 : List Nat := text! "__CONFIGOR_PASTE41(parse1, func, _1, _2, _3, _4, _5, _6, _7, _8, _9, _10, _11, _12, _13, _14, _15, \
      _16, _17, _18, _19, _20, _21, _22, _23, _24, _25, _26, _27, _28, _29, _30, _31, _32, _33, _34, _35, \
      _36, _37, _38, _39, _40, _41) parse1(parse1, func, _1) __CONFIGOR_PASTE40(parse1, func, _2, _3, _4, \
      _5, _6, _7, _8, _9, _10, _11, _12, _13, _14, _15, _16, _17, _18, _19, _20, _21, _22, _23, _24, _25, \
      _26, _27, _28, _29, _30, _31, _32, _33, _34, _35, _36, _37, _38, _39, _40, _41)"

/-- conversion.hpp:725-730. -/
def m_PASTE42 : List Nat := text! "__CONFIGOR_PASTE42(parse1, func, _1, _2, _3, _4, _5, _6, _7, _8, _9, _10, _11, _12, _13, _14, _15, \
      _16, _17, _18, _19, _20, _21, _22, _23, _24, _25, _26, _27, _28, _29, _30, _31, _32, _33, _34, _35, \
      _36, _37, _38, _39, _40, _41, _42) parse1(parse1, func, _1) __CONFIGOR_PASTE41(parse1, func, _2, _3, \
      _4, _5, _6, _7, _8, _9, _10, _11, _12, _13, _14, _15, _16, _17, _18, _19, _20, _21, _22, _23, _24, \
      _25, _26, _27, _28, _29, _30, _31, _32, _33, _34, _35, _36, _37, _38, _39, _40, _41, _42)"

/-- conversion.hpp:731-736. -/
def m_PASTE43 : List Nat := text! "__CONFIGOR_PASTE43(parse1, func, _1, _2, _3, _4, _5, _6, _7, _8, _9, _10, _11, _12, _13, _14, _15, \
      _16, _17, _18, _19, _20, _21, _22, _23, _24, _25, _26, _27, _28, _29, _30, _31, _32, _33, _34, _35, \
      _36, _37, _38, _39, _40, _41, _42, _43) parse1(parse1, func, _1) __CONFIGOR_PASTE42( parse1, func, \
      _2, _3, _4, _5, _6, _7, _8, _9, _10, _11, _12, _13, _14, _15, _16, _17, _18, _19, _20, _21, _22, \
      _23, _24, _25, _26, _27, _28, _29, _30, _31, _32, _33, _34, _35, _36, _37, _38, _39, _40, _41, _42, \
      _43)"

/-- conversion.hpp:737-742. -/
def m_PASTE44 : List Nat := text! "__CONFIGOR_PASTE44(parse1, func, _1, _2, _3, _4, _5, _6, _7, _8, _9, _10, _11, _12, _13, _14, _15, \
      _16, _17, _18, _19, _20, _21, _22, _23, _24, _25, _26, _27, _28, _29, _30, _31, _32, _33, _34, _35, \
      _36, _37, _38, _39, _40, _41, _42, _43, _44) parse1(parse1, func, _1) __CONFIGOR_PASTE43( parse1, \
      func, _2, _3, _4, _5, _6, _7, _8, _9, _10, _11, _12, _13, _14, _15, _16, _17, _18, _19, _20, _21, \
      _22, _23, _24, _25, _26, _27, _28, _29, _30, _31, _32, _33, _34, _35, _36, _37, _38, _39, _40, _41, \
      _42, _43, _44)"

/-- conversion.hpp:743-749. -/
def m_PASTE45 : List Nat := text! "__CONFIGOR_PASTE45(parse1, func, _1, _2, _3, _4, _5, _6, _7, _8, _9, _10, _11, _12, _13, _14, _15, \
      _16, _17, _18, _19, _20, _21, _22, _23, _24, _25, _26, _27, _28, _29, _30, _31, _32, _33, _34, _35, \
      _36, _37, _38, _39, _40, _41, _42, _43, _44, _45) parse1(parse1, func, _1) \
      __CONFIGOR_PASTE44(parse1, func, _2, _3, _4, _5, _6, _7, _8, _9, _10, _11, _12, _13, _14, _15, _16, \
      _17, _18, _19, _20, _21, _22, _23, _24, _25, _26, _27, _28, _29, _30, _31, _32, _33, _34, _35, _36, \
      _37, _38, _39, _40, _41, _42, _43, _44, _45)"

/-- conversion.hpp:750-756. -/
def m_PASTE46 : List Nat := text! "__CONFIGOR_PASTE46(parse1, func, _1, _2, _3, _4, _5, _6, _7, _8, _9, _10, _11, _12, _13, _14, _15, \
      _16, _17, _18, _19, _20, _21, _22, _23, _24, _25, _26, _27, _28, _29, _30, _31, _32, _33, _34, _35, \
      _36, _37, _38, _39, _40, _41, _42, _43, _44, _45, _46) parse1(parse1, func, _1) \
      __CONFIGOR_PASTE45(parse1, func, _2, _3, _4, _5, _6, _7, _8, _9, _10, _11, _12, _13, _14, _15, _16, \
      _17, _18, _19, _20, _21, _22, _23, _24, _25, _26, _27, _28, _29, _30, _31, _32, _33, _34, _35, _36, \
      _37, _38, _39, _40, _41, _42, _43, _44, _45, _46)"

/-- conversion.hpp:757-763. -/
def m_PASTE47 : List Nat := text! "__CONFIGOR_PASTE47(parse1, func, _1, _2, _3, _4, _5, _6, _7, _8, _9, _10, _11, _12, _13, _14, _15, \
      _16, _17, _18, _19, _20, _21, _22, _23, _24, _25, _26, _27, _28, _29, _30, _31, _32, _33, _34, _35, \
      _36, _37, _38, _39, _40, _41, _42, _43, _44, _45, _46, _47) parse1(parse1, func, _1) \
      __CONFIGOR_PASTE46(parse1, func, _2, _3, _4, _5, _6, _7, _8, _9, _10, _11, _12, _13, _14, _15, _16, \
      _17, _18, _19, _20, _21, _22, _23, _24, _25, _26, _27, _28, _29, _30, _31, _32, _33, _34, _35, _36, \
      _37, _38, _39, _40, _41, _42, _43, _44, _45, _46, _47)"

/-- conversion.hpp:764-770. -/
def m_PASTE48 : List Nat := text! "__CONFIGOR_PASTE48(parse1, func, _1, _2, _3, _4, _5, _6, _7, _8, _9, _10, _11, _12, _13, _14, _15, \
      _16, _17, _18, _19, _20, _21, _22, _23, _24, _25, _26, _27, _28, _29, _30, _31, _32, _33, _34, _35, \
      _36, _37, _38, _39, _40, _41, _42, _43, _44, _45, _46, _47, _48) parse1(parse1, func, _1) \
      __CONFIGOR_PASTE47(parse1, func, _2, _3, _4, _5, _6, _7, _8, _9, _10, _11, _12, _13, _14, _15, _16, \
      _17, _18, _19, _20, _21, _22, _23, _24, _25, _26, _27, _28, _29, _30, _31, _32, _33, _34, _35, _36, \
      _37, _38, _39, _40, _41, _42, _43, _44, _45, _46, _47, _48)"

/-- conversion.hpp:771-777. -/
def m_PASTE49 : List Nat := text! "__CONFIGOR_PASTE49(parse1, func, _1, _2, _3, _4, _5, _6, _7, _8, _9, _10, _11, _12, _13, _14, _15, \
      _16, _17, _18, _19, _20, _21, _22, _23, _24, _25, _26, _27, _28, _29, _30, _31, _32, _33, _34, _35, \
      _36, _37, _38, _39, _40, _41, _42, _43, _44, _45, _46, _47, _48, _49) parse1(parse1, func, _1) \
      __CONFIGOR_PASTE48(parse1, func, _2, _3, _4, _5, _6, _7, _8, _9, _10, _11, _12, _13, _14, _15, _16, \
      _17, _18, _19, _20, _21, _22, _23, _24, _25, _26, _27, _28, _29, _30, _31, _32, _33, _34, _35, _36, \
      _37, _38, _39, _40, _41, _42, _43, _44, _45, _46, _47, _48, _49)"

/-- conversion.hpp:778-784. -/
def m_PASTE50 : List Nat := text! "__CONFIGOR_PASTE50(parse1, func, _1, _2, _3, _4, _5, _6, _7, _8, _9, _10, _11, _12, _13, _14, _15, \
      _16, _17, _18, _19, _20, _21, _22, _23, _24, _25, _26, _27, _28, _29, _30, _31, _32, _33, _34, _35, \
      _36, _37, _38, _39, _40, _41, _42, _43, _44, _45, _46, _47, _48, _49, _50) parse1(parse1, func, _1) \
      __CONFIGOR_PASTE49(parse1, func, _2, _3, _4, _5, _6, _7, _8, _9, _10, _11, _12, _13, _14, _15, _16, \
      _17, _18, _19, _20, _21, _22, _23, _24, _25, _26, _27, _28, _29, _30, _31, _32, _33, _34, _35, _36, \
      _37, _38, _39, _40, _41, _42, _43, _44, _45, _46, _47, _48, _49, _50)"

/-- conversion.hpp:786. -/
def m_TO_CONF_REQUIRED : List Nat := text! "__CONFIGOR_TO_CONF_REQUIRED(field, name) c[name].operator=(v.field);"

/-- conversion.hpp:787. -/
def m_FROM_CONF_REQUIRED : List Nat := text! "__CONFIGOR_FROM_CONF_REQUIRED(field, name) c.at(name).get(v.field);"

/-- conversion.hpp:789-793. -/
def m_TO_CONF_OPTIONAL : List Nat := text! "__CONFIGOR_TO_CONF_OPTIONAL(field, name) if (v.field != decltype(v.field){}) { \
      __CONFIGOR_TO_CONF_REQUIRED(field, name) }"

/-- conversion.hpp:794-798. -/
def m_FROM_CONF_OPTIONAL : List Nat := text! "__CONFIGOR_FROM_CONF_OPTIONAL(field, name) if (c.count(name)) { __CONFIGOR_FROM_CONF_REQUIRED(field, \
      name) }"

/-- conversion.hpp:801. -/
def m_TO_CONF_REQUIRED1 : List Nat := text! "__CONFIGOR_TO_CONF_REQUIRED1(field) __CONFIGOR_TO_CONF_REQUIRED(field, #field)"

/-- conversion.hpp:802. -/
def m_TO_CONF_REQUIRED2 : List Nat := text! "__CONFIGOR_TO_CONF_REQUIRED2(field, name) __CONFIGOR_TO_CONF_REQUIRED(field, name)"

/-- conversion.hpp:803. -/
def m_TO_CONF_OPTIONAL1 : List Nat := text! "__CONFIGOR_TO_CONF_OPTIONAL1(field) __CONFIGOR_TO_CONF_OPTIONAL(field, #field)"

/-- conversion.hpp:804. -/
def m_TO_CONF_OPTIONAL2 : List Nat := text! "__CONFIGOR_TO_CONF_OPTIONAL2(field, name) __CONFIGOR_TO_CONF_OPTIONAL(field, name)"

/-- conversion.hpp:805. -/
def m_FROM_CONF_REQUIRED1 : List Nat := text! "__CONFIGOR_FROM_CONF_REQUIRED1(field) __CONFIGOR_FROM_CONF_REQUIRED(field, #field)"

/-- conversion.hpp:806. -/
def m_FROM_CONF_REQUIRED2 : List Nat := text! "__CONFIGOR_FROM_CONF_REQUIRED2(field, name) __CONFIGOR_FROM_CONF_REQUIRED(field, name)"

/-- conversion.hpp:807. -/
def m_FROM_CONF_OPTIONAL1 : List Nat := text! "__CONFIGOR_FROM_CONF_OPTIONAL1(field) __CONFIGOR_FROM_CONF_OPTIONAL(field, #field)"

/-- conversion.hpp:808. -/
def m_FROM_CONF_OPTIONAL2 : List Nat := text! "__CONFIGOR_FROM_CONF_OPTIONAL2(field, name) __CONFIGOR_FROM_CONF_OPTIONAL(field, name)"

/-- conversion.hpp:810-811. -/
def m_TO_CONF_CALL_OVERLOADREQUIRED : List Nat := text! "__CONFIGOR_TO_CONF_CALL_OVERLOADREQUIRED(...) \
      __CONFIGOR_EXPAND(__CONFIGOR_CALL_OVERLOAD(__CONFIGOR_TO_CONF_REQUIRED, __VA_ARGS__))"

/-- conversion.hpp:812-813. -/
def m_TO_CONF_CALL_OVERLOADOPTIONAL : List Nat := text! "__CONFIGOR_TO_CONF_CALL_OVERLOADOPTIONAL(...) \
      __CONFIGOR_EXPAND(__CONFIGOR_CALL_OVERLOAD(__CONFIGOR_TO_CONF_OPTIONAL, __VA_ARGS__))"

/-- conversion.hpp:814-815. -/
def m_FROM_CONF_CALL_OVERLOADREQUIRED : List Nat := text! "__CONFIGOR_FROM_CONF_CALL_OVERLOADREQUIRED(...) \
      __CONFIGOR_EXPAND(__CONFIGOR_CALL_OVERLOAD(__CONFIGOR_FROM_CONF_REQUIRED, __VA_ARGS__))"

/-- conversion.hpp:816-817. -/
def m_FROM_CONF_CALL_OVERLOADOPTIONAL : List Nat := text! "__CONFIGOR_FROM_CONF_CALL_OVERLOADOPTIONAL(...) \
      __CONFIGOR_EXPAND(__CONFIGOR_CALL_OVERLOAD(__CONFIGOR_FROM_CONF_OPTIONAL, __VA_ARGS__))"

/-- conversion.hpp:823-832. -/
def m_CONFIGOR_BIND : List Nat := text! "CONFIGOR_BIND(value_type, custom_type, ...) friend void to_value(value_type& c, const custom_type& \
      v) { __CONFIGOR_EXPAND(__CONFIGOR_PASTE(__CONFIGOR_COMBINE_PASTE1, __CONFIGOR_TO_CONF_CALL_OVERLOAD, \
      __VA_ARGS__)) } friend void from_value(const value_type& c, custom_type& v) { __CONFIGOR_EXPAND( \
      __CONFIGOR_PASTE(__CONFIGOR_COMBINE_PASTE1, __CONFIGOR_FROM_CONF_CALL_OVERLOAD, __VA_ARGS__)) }"

/-- The macros of conversion.hpp:542-832. -/
def header : List (Text × Macro) := [
  m_EXPAND, m_COMBINE_INNER, m_COMBINE, m_GET_ARG_MAX50, m_COUNT_ARGS_MAX50, m_CALL_OVERLOAD, m_PASTE,
  m_COMBINE_PASTE1, m_CALL_PASTE1, m_PASTE2, m_PASTE3, m_PASTE4, m_PASTE5, m_PASTE6, m_PASTE7, m_PASTE8,
  m_PASTE9, m_PASTE10, m_PASTE11, m_PASTE12, m_PASTE13, m_PASTE14, m_PASTE15, m_PASTE16, m_PASTE17, m_PASTE18,
  m_PASTE19, m_PASTE20, m_PASTE21, m_PASTE22, m_PASTE23, m_PASTE24, m_PASTE25, m_PASTE26, m_PASTE27, m_PASTE28,
  m_PASTE29, m_PASTE30, m_PASTE31, m_PASTE32, m_PASTE33, m_PASTE34, m_PASTE35, m_PASTE36, m_PASTE37, m_PASTE38,
  m_PASTE39, m_PASTE40, m_PASTE41, m_PASTE42, m_PASTE43, m_PASTE44, m_PASTE45, m_PASTE46, m_PASTE47, m_PASTE48,
  m_PASTE49, m_PASTE50, m_TO_CONF_REQUIRED, m_FROM_CONF_REQUIRED, m_TO_CONF_OPTIONAL, m_FROM_CONF_OPTIONAL,
  m_TO_CONF_REQUIRED1, m_TO_CONF_REQUIRED2, m_TO_CONF_OPTIONAL1, m_TO_CONF_OPTIONAL2, m_FROM_CONF_REQUIRED1,
  m_FROM_CONF_REQUIRED2, m_FROM_CONF_OPTIONAL1, m_FROM_CONF_OPTIONAL2, m_TO_CONF_CALL_OVERLOADREQUIRED,
  m_TO_CONF_CALL_OVERLOADOPTIONAL, m_FROM_CONF_CALL_OVERLOADREQUIRED, m_FROM_CONF_CALL_OVERLOADOPTIONAL,
  m_CONFIGOR_BIND].map define

/-- The macros of a program: those of conversion.hpp, and its own. -/
def macros (user : Text → Option Macro) (t : Text) : Option Macro :=
  match header.find? fun d => d.1 = t with
  | some d => some d.2
  | none => user t

/-- What the compiler sees of a source text of the program. -/
def preprocess (user : Text → Option Macro) (n : Nat) (ts : List Text) : Option (List Text) :=
  (expand (macros user) n (ts.map fun t => ⟨t, []⟩)).map fun out => out.map (·.text)

end Configor.Preproc
