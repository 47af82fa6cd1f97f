import Verif.Spec.Bind
import Verif.Proofs.Preproc
/-!
# The macros of conversion.hpp, in the form the rules need
-/
set_option autoImplicit false
set_option maxRecDepth 100000

namespace Configor.Preproc
open Spec

def nExpand : Text := text! "__CONFIGOR_EXPAND"
def nCombineInner : Text := text! "__CONFIGOR_COMBINE_INNER"
def nCombine : Text := text! "__CONFIGOR_COMBINE"
def nGetArg : Text := text! "__CONFIGOR_GET_ARG_MAX50"
def nCount : Text := text! "__CONFIGOR_COUNT_ARGS_MAX50"
def nOverload : Text := text! "__CONFIGOR_CALL_OVERLOAD"
def nPaste : Text := text! "__CONFIGOR_PASTE"
def nPaste1 : Text := text! "__CONFIGOR_COMBINE_PASTE1"
def nBind : Text := text! "CONFIGOR_BIND"

def num (n : Nat) : Text := if n < 10 then [48 + n] else [48 + n / 10, 48 + n % 10]

def pasteN (n : Nat) : Text := nPaste ++ num n

/-- `TO_CONF` or `FROM_CONF`, `REQUIRED` or `OPTIONAL`. -/
def nConf (from_ opt : Bool) : Text :=
  (if from_ then text! "__CONFIGOR_FROM_CONF_" else text! "__CONFIGOR_TO_CONF_") ++ (if opt then text! "OPTIONAL" else text! "REQUIRED")

def nCallOver (from_ : Bool) : Text :=
  if from_ then text! "__CONFIGOR_FROM_CONF_CALL_OVERLOAD" else text! "__CONFIGOR_TO_CONF_CALL_OVERLOAD"

def word (opt : Bool) : Text := if opt then text! "OPTIONAL" else text! "REQUIRED"

/-- The numbers 50 to 0, and the macros 50 to 2. -/
def nums : List Text := (List.range 51).map fun i => num (50 - i)
def pastes : List Text := (List.range 49).map fun i => pasteN (50 - i)

def lits (ts : List Text) : List Piece := ts.map .lit

def cm : Piece := .lit comma
def lp : Piece := .lit lparen
def rp : Piece := .lit rparen

def confPieces (from_ opt : Bool) : List Piece :=
  match from_, opt with
  | false, false => lits (toks! "c[") ++ .par 1 :: lits (toks! "].operator=(v.") ++ .par 0 :: lits (toks! ");")
  | true, false => lits (toks! "c.at(") ++ .par 1 :: lits (toks! ").get(v.") ++ .par 0 :: lits (toks! ");")
  | false, true => lits (toks! "if (v.") ++ .par 0 :: lits (toks! "!= decltype(v.") ++ .par 0 :: lits (toks! "){}) {") ++
      [.lit (nConf false false), lp, .par 0, cm, .par 1, rp] ++ lits (toks! "}")
  | true, true => lits (toks! "if (c.count(") ++ .par 1 :: lits (toks! ")) {") ++
      [.lit (nConf true false), lp, .par 0, cm, .par 1, rp] ++ lits (toks! "}")

def bindPieces : List Piece :=
  lits (toks! "friend void to_value(") ++ .par 0 :: lits (toks! "& c, const") ++ .par 1 :: lits (toks! "& v) {") ++
  [.lit nExpand, lp, .lit nPaste, lp, .lit nPaste1, cm, .lit (nCallOver false), cm, .par 2, rp, rp] ++
  lits (toks! "} friend void from_value(const") ++ .par 0 :: lits (toks! "& c,") ++ .par 1 :: lits (toks! "& v) {") ++
  [.lit nExpand, lp, .lit nPaste, lp, .lit nPaste1, cm, .lit (nCallOver true), cm, .par 2, rp, rp] ++ lits (toks! "}")

def pastePieces (n : Nat) : List Piece :=
  [.par 0, lp, .par 0, cm, .par 1, cm, .par 2, rp, .lit (pasteN (n - 1)), lp, .par 0, cm, .par 1] ++
    (List.range (n - 1)).flatMap (fun i => [cm, .par (i + 3)]) ++ [rp]

def bools : List Bool := [false, true]

def table : List (Text × Nat × Bool × List Piece) :=
  [(nExpand, 1, false, [.par 0]),
   (nCombineInner, 2, false, [.cat 0 1]),
   (nCombine, 2, false, [.lit nCombineInner, lp, .par 0, cm, .par 1, rp]),
   (nGetArg, 51, true, [.par 50]),
   (nCount, 0, true, [.lit nExpand, lp, .lit nGetArg, lp, .par 0] ++ nums.flatMap (fun k => [cm, .lit k]) ++ [rp, rp]),
   (nOverload, 1, true, [.lit nExpand, lp, .lit nCombine, lp, .par 0, cm, .lit nCount, lp, .par 1, rp, rp, lp, .par 1, rp, rp]),
   (nPaste, 2, true, [.lit nExpand, lp, .lit nGetArg, lp, .par 2] ++ pastes.flatMap (fun k => [cm, .lit k]) ++
     [cm, .par 0, rp, lp, .par 0, cm, .par 1, cm, .par 2, rp, rp]),
   (nPaste1, 3, false, [.cat 1 2]),
   (pasteN 2, 4, false, [.par 0, lp, .par 0, cm, .par 1, cm, .par 2, rp, .par 0, lp, .par 0, cm, .par 1, cm, .par 3, rp]),
   (nBind, 2, true, bindPieces)] ++
  (List.range 48).map (fun i => (pasteN (i + 3), i + 5, false, pastePieces (i + 3))) ++
  bools.flatMap fun f => bools.flatMap fun o =>
    [(nConf f o, 2, false, confPieces f o),
     (nConf f o ++ num 1, 1, false, [.lit (nConf f o), lp, .par 0, cm, .str 0, rp]),
     (nConf f o ++ num 2, 2, false, [.lit (nConf f o), lp, .par 0, cm, .par 1, rp]),
     (nCallOver f ++ word o, 0, true, [.lit nExpand, lp, .lit nOverload, lp, .lit (nConf f o), cm, .par 0, rp, rp])]

def inHeader (t : Text) : Option Macro := (header.find? fun d => d.1 = t).map (·.2)

theorem table_ok : table.all (fun e => (inHeader e.1).bind info == some e.2) = true := by decide +kernel

/-- Tokens that are no macros. -/
def puncts : List Text := toks! "( ) [ ] { } . = ; , & !"

def others : List Text := bindWords ++ puncts ++ nums ++ [nCallOver false, nCallOver true]

theorem others_ok : others.all (fun t => (inHeader t).isNone) = true := by decide +kernel

end Configor.Preproc
