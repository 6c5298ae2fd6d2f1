/-!
# Specification: how Tcl splits a command into words

From the Tcl manual (`Tcl(n)`), for scripts of one command.  Words are separated by spaces and tabs.  A word
that begins with `"` goes on to the next `"`, which must be followed by a separator or the end.  In both kinds
of words `$`, `[` and `\` begin substitutions (`\` also takes the next character's meaning away).  Braced words
and scripts of several commands are left out: `words` is then `none`, as it is for syntax errors.
-/

namespace Bdlib.Spec

/-- A character of a word: itself, or the beginning of a substitution. -/
inductive Tok
  | ch (c : UInt8)
  | subst (c : UInt8)
  deriving DecidableEq

def tok (c : UInt8) : Tok := if c = 36 ∨ c = 91 ∨ c = 92 then .subst c else .ch c

/-- Where the splitter is: between words, in a plain word, in a quoted word, after the closing quote. -/
inductive Place
  | gap
  | bare (w : List Tok)
  | quoted (w : List Tok)
  | closed (w : List Tok)

def isBlank (c : UInt8) : Bool := c = 32 ∨ c = 9
/-- The end of a command. -/
def isEnd (c : UInt8) : Bool := c = 10 ∨ c = 59

/-- The words from a place on. -/
def split : Place → List UInt8 → Option (List (List Tok))
  | .gap, [] => some []
  | .bare w, [] => some [w]
  | .closed w, [] => some [w]
  | .quoted _, [] => none
  | .gap, c :: r =>
    if isBlank c then split .gap r
    else if isEnd c ∨ c = 123 then none
    else if c = 34 then split (.quoted []) r
    else if c = 92 then match r with
      | [] => none
      | _ :: r => split (.bare [.subst 92]) r
    else split (.bare [tok c]) r
  | .bare w, c :: r =>
    if isBlank c then (split .gap r).map (w :: ·)
    else if isEnd c then none
    else if c = 92 then match r with
      | [] => none
      | _ :: r => split (.bare (w ++ [.subst 92])) r
    else split (.bare (w ++ [tok c])) r
  | .quoted w, c :: r =>
    if c = 34 then split (.closed w) r
    else if c = 92 then match r with
      | [] => none
      | _ :: r => split (.quoted (w ++ [.subst 92])) r
    else split (.quoted (w ++ [tok c])) r
  | .closed w, c :: r =>
    if isBlank c then (split .gap r).map (w :: ·) else none

/-- The words of a command. -/
def words (script : List UInt8) : Option (List (List Tok)) := split .gap script

/-- A word without substitutions. -/
def literal (w : List UInt8) : List Tok := w.map .ch

end Bdlib.Spec
