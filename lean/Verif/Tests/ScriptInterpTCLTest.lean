import Verif.Tests.Harness
import Verif.Tcl.Interps
import Verif.Tcl.Callback
import Verif.Props.C55
import Verif.Props.C68

/-!
# `tests/ScriptInterpTCLTest.cpp` on the model

What Tcl does itself is done by hand: the scripts are given as the commands they run, with their words.  Tcl adds to an
error message where it happened (`while executing ...`); here only the message is compared.  Left out: `double`.
-/

namespace Bdlib.Tests.ScriptInterpTCLTest
open Bdlib Bdlib.Spec Bdlib.Str Bdlib.Tcl Bdlib.Tests

/-! ## `evalTest` (34-41) -/

/-- An interpreter that knows two commands; its state is `errorInfo`. -/
def interp : Interp Bytes where
  evalEx info script :=
    if script = b!"expr {4 + 4}" then (info, .ok b!"8")
    else if script = b!"set errorInfo" then (info, .ok info)
    else (b!"invalid command name", .error b!"invalid command name")

def evalTest : Bool :=
  match eval interp 2 [] b!"expr {4 + 4}", eval interp 2 [] b!"unknown" with
  | .ret (_, r), .ret (s, u) => match eval interp 2 s b!"set errorInfo", eval interp 2 s b!"unknown" with
    | .ret (_, i), .ret (_, u') => r == b!"8" && u == u' && i == u'
    | _, _ => false
  | _, _ => false

example : evalTest = true := by decide +kernel

/-! ## `loadScriptTest` (43-64) -/

def loads (evalFile : Bytes → Option Bytes) (f : Bytes) (code : LoadError) : Bool :=
  match loadScript lib evalFile f [] with
  | .ret l => l.code == code
  | _ => false

def loadScriptTest : Bool :=
  loads (fun _ => none) b!"/dev/null" .wrongInterp &&
  loads (fun _ => some b!"couldn't read file") b!"test.tcl" .error &&
  loads (fun f => if f = b!"test.tcl" then none else some []) b!"test.tcl" .ok

example : loadScriptTest = true := by decide +kernel

/-! ## `linkVarTest` (98-307) -/

/-- The operations with what they have to give. -/
def steps {V H : Type} (toTcl : V → Option Bytes) (parse : Bytes → Option V) (s : LinkSt V H) :
    List (LinkOp Bytes V H × Got) → Option (LinkSt V H)
  | [] => some s
  | (op, g) :: ops => match runLink toTcl parse s op with
    | none => none
    | some (s, g') => if g = g' then steps toTcl parse s ops else none

/-- A text with its NUL. -/
def z (x : Bytes) : Bytes := x ++ [0]

/-- Texts in buffers (103-133): 0 `ccstr`, 1 `cstr`, 2 `acstr`, 3 `alcstr`. -/
def buffers : Option (LinkSt Bytes Nat) :=
  steps some some (.init (fun _ => []) fun b => if b = 0 then z b!"I am read-only" else z b!"blah") [
    (.link b!"ccstr" (.text 0) none, .nothing),
    (.read b!"ccstr", .value b!"I am read-only"),
    (.write b!"ccstr" b!"test", .refused),
    (.read b!"ccstr", .value b!"I am read-only"),
    (.link b!"cstr" (.buf 1 5) none, .nothing),
    (.read b!"cstr", .value b!"blah"),
    (.write b!"cstr" b!"test1234", .done),
    (.unlink b!"cstr", .nothing),
    (.link b!"acstr" (.buf 2 5) none, .nothing),
    (.read b!"acstr", .value b!"blah"),
    (.write b!"acstr" b!"test123", .done),
    (.link b!"alcstr" (.buf 3 5) none, .nothing),
    (.read b!"alcstr", .value b!"blah"),
    (.write b!"alcstr" b!"test123", .done)]

example : (buffers.map fun s => (List.range 4).map s.bufs) = some [z b!"I am read-only", z b!"test", z b!"test", z b!"test"] := by
  decide +kernel

/-- Strings (135-164): 0 `x`, 1 `ro`. -/
def strings : Option (LinkSt Bytes Nat) :=
  steps some some (.init (fun a => if a = 0 then b!"54321" else b!"I am read-only") fun _ => []) [
    (.link b!"x" (.var 0) none, .nothing),
    (.read b!"x", .value b!"54321"),
    (.set 0 b!"test 1 2 3 4 5 ", .nothing),
    (.read b!"x", .value b!"test 1 2 3 4 5 "),
    (.write b!"x" b!"5 4 2 3 1  test", .done),
    (.read b!"x", .value b!"5 4 2 3 1  test")]

example : (strings.map fun s => s.vals 0) = some b!"5 4 2 3 1  test" := by decide +kernel

def strings2 : Option (LinkSt Bytes Nat) := strings.bind fun s =>
  steps some some s [
    (.set 0 b!"5 4 2", .nothing),
    (.read b!"x", .value b!"5 4 2"),
    (.link b!"ro" (.const 1) none, .nothing),
    (.read b!"ro", .value b!"I am read-only"),
    (.write b!"ro" b!"test", .refused),
    (.read b!"ro", .value b!"I am read-only"),
    (.link b!"t_x" (.var 0) none, .nothing),
    (.read b!"t_x", .value b!"5 4 2")]

example : (strings2.map fun s => s.vals 1) = some b!"I am read-only" := by decide +kernel

/-- The text of an integer. -/
def intText (n : Int) : Bytes := if n < 0 then 45 :: decimal n.natAbs else decimal n.natAbs

/-- The integer a text denotes (digits, perhaps with a sign). -/
def textInt : Bytes → Option Int
  | 45 :: x => if x ≠ [] ∧ x.all (fun c => 48 ≤ c && c ≤ 57) then some (-(x.foldl (fun n c => 10 * n + (c.toNat - 48)) 0 : Nat)) else none
  | x => if x ≠ [] ∧ x.all (fun c => 48 ≤ c && c ≤ 57) then some ((x.foldl (fun n c => 10 * n + (c.toNat - 48)) 0 : Nat)) else none

/-- Integers (166-236): a variable that is read, set to its value plus four by a script and then to `d` by the program, and
a read-only one. -/
def integers (t : IntType) (v d : Int) : Option (List Int) := do
  let s ← steps (fun n => some (intText (ofC t n))) (fun x => some (toC strictLong t (textInt x)))
    (LinkSt.init (H := Nat) (fun a => if a = 0 then v else 52) fun _ => []) [
    (.link b!"y" (.var 0) none, .nothing),
    (.read b!"y", .value (intText v)),
    (.write b!"y" (intText (v + 4)), .done)]
  let s' ← steps (fun n => some (intText (ofC t n))) (fun x => some (toC strictLong t (textInt x))) s [
    (.read b!"y", .value (intText (v + 4))),
    (.set 0 d, .nothing),
    (.read b!"y", .value (intText d)),
    (.link b!"ciy" (.const 1) none, .nothing),
    (.read b!"ciy", .value (intText 52)),
    (.write b!"ciy" (intText 12), .refused),
    (.read b!"ciy", .value (intText 52)),
    (.link b!"t_y" (.var 0) none, .nothing),
    (.read b!"t_y", .value (intText d))]
  return [s.vals 0, s'.vals 0, s'.vals 1]

example : integers .i32 42 503 = some [46, 503, 52] := by decide +kernel
example : integers .i64 42 503 = some [46, 503, 52] := by decide +kernel
example : integers .i16 (-42) 300 = some [-38, 300, 52] := by decide +kernel
example : integers .u16 42 300 = some [46, 300, 52] := by decide +kernel
example : integers .i8 (-42) 1 = some [-38, 1, 52] := by decide +kernel
example : integers .u8 42 1 = some [46, 1, 52] := by decide +kernel

/-- `bool` (258-276): `set by 2` stores a truth value. -/
def bools : Option (LinkSt Bool Nat) :=
  steps (fun v => some (if v then b!"1" else b!"0")) (fun x => some (match textInt x with | some n => n ≠ 0 | none => false))
    (.init (fun _ => true) fun _ => []) [
    (.link b!"by" (.var 0) none, .nothing),
    (.read b!"by", .value b!"1"),
    (.write b!"by" b!"2", .done),
    (.read b!"by", .value b!"1"),
    (.set 0 false, .nothing),
    (.read b!"by", .value b!"0"),
    (.link b!"bcy" (.const 1) none, .nothing),
    (.read b!"bcy", .value b!"1"),
    (.write b!"bcy" b!"0", .refused),
    (.read b!"bcy", .value b!"1")]

example : (bools.map fun s => s.vals 1) = some true := by decide +kernel

/-- Hooks (280-289). -/
def hooked : Option (LinkSt Bytes Nat) :=
  steps some some (.init (fun _ => b!"oldval") fun _ => []) [(.link b!"nick" (.var 0) (some 1), .nothing)]

example : (hooked.map fun s => (s.vals 0, s.log)) = some (b!"oldval", []) := by decide +kernel
example : ((hooked.bind fun s => steps some some s [(.write b!"nick" b!"newval", .done)]).map fun s => (s.vals 0, s.log))
    = some (b!"newval", [(1, .val b!"oldval", .val b!"newval")]) := by decide +kernel

/-- Hooks of buffers (291-304).  The test links 50 bytes and sets them to `newval`, which has only 6: reading behind the
text is undefined.  With a value that is long enough the assertions hold. -/
def hookedBuf (x : Bytes) : Option (LinkSt Bytes Nat) :=
  steps some some (.init (fun _ => []) fun _ => b!"oldval" ++ List.replicate 44 0) [
    (.link b!"cnick" (.buf 0 50) (some 2), .nothing),
    (.write b!"cnick" x, .done)]

example : (hookedBuf b!"newval").isNone = true := by decide +kernel
example : ((hookedBuf (b!"newval" ++ List.replicate 44 0)).map fun s => (cstr (s.bufs 0), s.log.map (·.1)))
    = some (b!"newval", [2]) := by decide +kernel

/-! ## `unlinkVarTest` (309-321) -/

def unlinkVarTest : Option (LinkSt Bytes Nat) :=
  steps some some (.init (fun _ => b!"5") fun _ => []) [
    (.read b!"x", .unknown),
    (.link b!"x" (.var 0) none, .nothing),
    (.read b!"x", .value b!"5"),
    (.unlink b!"x", .nothing),
    (.read b!"x", .unknown)]

example : unlinkVarTest.isSome = true := by decide +kernel

/-! ## `createCommandTest` (323-445) -/

/-- The types of the parameters and results of the test. -/
inductive Val
  | str (x : Bytes)
  | int (n : Int)
  | list (l : List Bytes)
  | table (l : List (List Bytes))
  | bad
  deriving DecidableEq

/-- Converting arguments. -/
def pStr : (Tcl.Obj → Except Bytes Val) × Val := (fun o => .ok (.str (Tcl.toString plainLibrary o)), .str [])
def pInt : (Tcl.Obj → Except Bytes Val) × Val := (fun o => .ok (.int (toC strictLong .i32 (textInt (Tcl.toString plainLibrary o)))), .int 0)
def pList : (Tcl.Obj → Except Bytes Val) × Val :=
  (fun o => .ok (match toArray plainLibrary true o with | .ret l => .list l | _ => .bad), .list [])
def pTable : (Tcl.Obj → Except Bytes Val) × Val :=
  (fun o => .ok (match toTable plainLibrary true o with | .ret l => .table l | _ => .bad), .table [])

def x : Cmd Tcl.Obj Val Val := createCommand [pStr]
  (fun | [.str v] => .ret (.str (b!"Test command proc" ++ v)) | _ => .throwOther) none npos
def xi : Cmd Tcl.Obj Val Val := createCommand [pStr]
  (fun | [.str v] => .ret (.int (53 + (textInt v).getD 0)) | _ => .throwOther) none npos
def paramTest (usage : Option Bytes) (min : Nat) : Cmd Tcl.Obj Val Val := createCommand [pStr, pInt]
  (fun | [.str v, .int n] => .ret (.str (if n ≠ 0 then b!"I got 2 args, arg1: " ++ v ++ b!" arg2: " ++ intText n else b!"I got 1 args, arg1: " ++ v))
       | _ => .throwOther) usage min
def listReturn : Cmd Tcl.Obj Val Val := createCommand [pStr, pStr, pStr]
  (fun | [.str a, .str b, .str c] => .ret (.list [a, b, c]) | _ => .throwOther) none npos
def nestedListReturn : Cmd Tcl.Obj Val Val := createCommand [pStr, pStr, pStr]
  (fun | [.str a, .str b, .str c] => .ret (.table [[a, b!"10"], [b, b!"20"], [c, b!"30"]]) | _ => .throwOther) none npos
/-- `join` as a function. -/
def joined (l : List Bytes) : Bytes := match join l b!"-" false with | .ret x => x | _ => []
def listParam : Cmd Tcl.Obj Val Val := createCommand [pList, pStr]
  (fun | [.list l, .str v] => .ret (.str (v ++ b!" " ++ joined l)) | _ => .throwOther) none npos
def nestedListParam : Cmd Tcl.Obj Val Val := createCommand [pTable, pStr]
  (fun | [.table [a, b, c], .str v] => .ret (.str (v ++ b!" ;" ++ joined a ++ b!";" ++ joined b ++ b!";" ++ joined c)) | _ => .throwOther) none npos
def args : Cmd Tcl.Obj Val Val := createCommand [pInt, pInt]
  (fun | [.int n, _] => if n = -1 then .throwString b!"Invalid param: -1" else if n = -2 then .throwOther else .ret (.str [])
       | _ => .throwOther) (some b!"foo1 ?foo2?") 1

/-- A call with words that are texts gives this. -/
def gives (c : Cmd Tcl.Obj Val Val) (words : List Tcl.Obj) (want : Except Bytes Val) : Bool :=
  match dispatch (plainLibrary.text ·) c words, want with
  | .ret (_, .ok v), .ok w => v == w
  | .ret (_, .error e), .error e' => e == e'
  | _, _ => false

def w (l : List Bytes) : List Tcl.Obj := l.map .str

def createCommandTest : List Bool := [
  gives x (w [b!"x"]) (.error b!"Wrong # args. Expected 1, got 0."),
  gives x (w [b!"x", b!"Test"]) (.ok (.str b!"Test command procTest")),
  gives xi (w [b!"xi", b!"0"]) (.ok (.int 53)),
  gives xi (w [b!"xi", b!"1"]) (.ok (.int 54)),
  gives (paramTest none 1) (w [b!"param_test"]) (.error b!"Wrong # args. Expected 1, got 0."),
  gives (paramTest none 1) (w [b!"param_test", b!"TEST", b!"1", b!"2"]) (.error b!"Wrong # args. Expected 1, got 3."),
  gives (paramTest none 1) (w [b!"param_test", b!"TEST", b!"1"]) (.ok (.str b!"I got 2 args, arg1: TEST arg2: 1")),
  gives (paramTest none 1) (w [b!"param_test", b!"5", b!"10"]) (.ok (.str b!"I got 2 args, arg1: 5 arg2: 10")),
  gives listReturn (w [b!"listReturn", b!"1", b!"2", b!"3"]) (.ok (.list [b!"1", b!"2", b!"3"])),
  gives nestedListReturn (w [b!"nestedListReturn", b!"1", b!"2", b!"3"])
    (.ok (.table [[b!"1", b!"10"], [b!"2", b!"20"], [b!"3", b!"30"]])),
  gives listParam [.str b!"listParam", .list (w [b!"1", b!"2", b!"3"]), .str b!"list"] (.ok (.str b!"list 1-2-3")),
  gives nestedListParam
    [.str b!"nestedListParam", .list [.list (w [b!"1", b!"10"]), .list (w [b!"2", b!"20"]), .list (w [b!"3", b!"30"])], .str b!"list"]
    (.ok (.str b!"list ;1-10;2-20;3-30")),
  gives (paramTest none 1) (w [b!"param_test", b!"TEST"]) (.ok (.str b!"I got 1 args, arg1: TEST")),
  gives args (w [b!"args"]) (.error b!"Wrong # args. Expected 1, got 0. Should be \"args foo1 ?foo2?\""),
  gives args (w [b!"args", b!"-1"]) (.error b!"Invalid param: -1"),
  gives args (w [b!"args", b!"-2"]) (.error b!"Unhandled exception.")]

example : createCommandTest.all id = true := by decide +kernel

/-! ## `createCommandEventTest` (447-496) -/

/-- A script of the one interpreter runs `bind name value`; the registry has the commands `param_test` and `bind`. -/
def bindTest (e : Bytes) (o : Tcl.Obj) : Option (Cbs Bytes Nat) := do
  let r ← create id (makeInterp (Reg.init []) 0) 0 b!"param_test" 1
  let r ← create id r 0 b!"bind" 2
  let (r, f) ← enter id r 0 b!"bind"
  if f = some 2 then
    let s ← bindCb plainLibrary (⟨r, fun _ => none⟩ : Cbs Bytes Nat) e o
    let r ← leave id s.reg
    return ⟨r, s.bound⟩
  else none

/-- The script the callback evaluates: Tcl reads the words `echo` and `my params`. -/
def scriptFor (e : Bytes) (o : Tcl.Obj) (params : List Bytes) : Option (Nat × Bytes) := do
  let s ← bindTest e o
  let cb ← s.bound e
  match cb.script s.reg.live params with
  | .ret r => some r
  | _ => none

example : scriptFor b!"test" (.str b!"echo") [b!"my params"] = some (0, b!"echo \"my params\"") := by decide +kernel
example : scriptFor b!"complex test" (.str b!"param_test") [b!"test", b!"42"] = some (0, b!"param_test \"test\" \"42\"") := by decide +kernel
example : scriptFor b!"complex test" (.str b!"param_test") [b!"some argument", b!"45"]
    = some (0, b!"param_test \"some argument\" \"45\"") := by decide +kernel
example : gives (paramTest none npos) (w [b!"param_test", b!"test", b!"42"]) (.ok (.str b!"I got 2 args, arg1: test arg2: 42")) = true := by
  decide +kernel
example : gives (paramTest none npos) (w [b!"param_test", b!"some argument", b!"45"])
    (.ok (.str b!"I got 2 args, arg1: some argument arg2: 45")) = true := by decide +kernel

/-! ## `deleteCommandTest` (498-508) -/

def deleteCommandTest : Option (List (Option Nat)) := do
  let r := makeInterp (Reg.init []) 0
  let (r, a) ← enter id r 0 b!"x"
  let r ← create id r 0 b!"x" 1
  let (r, b) ← enter id r 0 b!"x"
  let r ← leave id r
  let r ← delete id r b!"x"
  let (r, c) ← enter id r 0 b!"x"
  let _ ← delete id r b!"x"
  return [a, b, c]

example : deleteCommandTest = some [none, some 1, none] := by decide +kernel

end Bdlib.Tests.ScriptInterpTCLTest
