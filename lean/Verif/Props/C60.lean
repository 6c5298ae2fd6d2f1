import Verif.Ios.Model

/-!
# C60: reading Strings from istreams

Both functions set the stream's fail bit when they read up to the end of the input, even if they read
something.  So a loop `while (getline(is, s))` does not yield the last line if it has no newline
(`c60_refuted_last_line`), and `while (is >> s)` not the last token if nothing follows it
(`c60_refuted_last_token`); everything else is as specified.
-/

namespace Bdlib.Ios
open Bdlib Bdlib.Str

/-- A stream on which nothing went wrong. -/
def good (u : Bytes) : IStream := ⟨u, false, false⟩
/-- A stream on which reading reached the end. -/
def ended : IStream := ⟨[], true, true⟩

/-- Whitespace: tab, newline, vertical tab, form feed, carriage return, blank. -/
def space (c : UInt8) : Bool := [9, 10, 11, 12, 13, 32].contains c

theorem isspace_eq : isspace = space := by
  funext c
  have h : ∀ b : BitVec 8, isspace ⟨b⟩ = space ⟨b⟩ := by decide +kernel
  exact h c.toBitVec

/-- Only whitespace. -/
def Blank (w : Bytes) : Prop := ∀ c ∈ w, space c = true
/-- Without whitespace, and not empty. -/
def Token (t : Bytes) : Prop := t ≠ [] ∧ ∀ c ∈ t, space c = false

theorem get_good (c : UInt8) (r : Bytes) (ch : UInt8) : get (good (c :: r)) ch = (good r, c) := rfl
theorem get_end (ch : UInt8) : get (good []) ch = (ended, ch) := rfl

theorem tokenLoop_space : ∀ (t : Bytes) (n : Nat) (ch c : UInt8) (r acc : Bytes), t.length < n → (∀ x ∈ t, space x = false) → space c = true →
    tokenLoop n (good (t ++ c :: r)) ch acc = some (good r, c, acc ++ ch :: t)
  | [], n + 1, ch, c, r, acc, _, _, hc => by
    unfold tokenLoop
    try rw [isspace_eq]
    rw [List.nil_append, get_good]
    dsimp only
    rw [if_neg (by simp [hc])]
  | x :: t, n + 1, ch, c, r, acc, hn, ht, hc => by
    unfold tokenLoop
    try rw [isspace_eq]
    rw [List.cons_append, get_good]
    dsimp only
    rw [if_pos ⟨by simp [good], by simp [ht x List.mem_cons_self]⟩,
      tokenLoop_space t n x c r _ (by simp at hn; omega) (fun y hy => ht y (List.mem_cons_of_mem _ hy)) hc]
    simp

theorem tokenLoop_end : ∀ (t : Bytes) (n : Nat) (ch : UInt8) (acc : Bytes), t.length < n → (∀ x ∈ t, space x = false) →
    space ch = false → ∃ c, space c = false ∧ tokenLoop n (good t) ch acc = some (ended, c, acc ++ ch :: t)
  | [], n + 1, ch, acc, _, _, hch => by
    refine ⟨ch, hch, ?_⟩
    unfold tokenLoop
    try rw [isspace_eq]
    rw [get_end]
    rfl
  | x :: t, n + 1, ch, acc, hn, ht, hch => by
    have hx := ht x List.mem_cons_self
    obtain ⟨c, hc, h⟩ := tokenLoop_end t n x (acc ++ [ch]) (by simp at hn; omega) (fun y hy => ht y (List.mem_cons_of_mem _ hy)) hx
    refine ⟨c, hc, ?_⟩
    unfold tokenLoop
    try rw [isspace_eq]
    rw [get_good]
    dsimp only
    rw [if_pos ⟨by simp [good], by simp [hx]⟩, h]
    simp

theorem dropWhile_blank {w : Bytes} (hw : Blank w) (r : Bytes) : (w ++ r).dropWhile space = r.dropWhile space := by
  induction w with
  | nil => rfl
  | cons c w ih =>
    rw [List.cons_append, List.dropWhile_cons_of_pos (hw c List.mem_cons_self)]
    exact ih fun x hx => hw x (List.mem_cons_of_mem _ hx)

theorem getChar_token {w t : Bytes} {c : UInt8} (hw : Blank w) (hc : space c = false) (ch : UInt8) :
    getChar (good (w ++ c :: t)) ch = (good t, c) := by
  unfold getChar
  try rw [isspace_eq]
  rw [if_neg (by simp [good])]
  have : (good (w ++ c :: t)).unread.dropWhile space = c :: t := by
    show (w ++ c :: t).dropWhile space = _
    rw [dropWhile_blank hw, List.dropWhile_cons_of_neg (by simp [hc])]
  rw [this]
  rfl

/-- A token after any whitespace, with whitespace after it: the token is read, up to that whitespace. -/
theorem c60_token {w t : Bytes} {c : UInt8} {r : Bytes} (hw : Blank w) (ht : Token t) (hc : space c = true)
    {n : Nat} (hn : t.length ≤ n) : extract n (good (w ++ t ++ c :: r)) = some (good (c :: r), t) := by
  obtain ⟨hne, ht⟩ := ht
  cases t with
  | nil => exact absurd rfl hne
  | cons x t =>
    unfold extract
    try rw [isspace_eq]
    rw [List.append_assoc, List.cons_append, getChar_token hw (ht x List.mem_cons_self)]
    dsimp only
    rw [if_pos (by simp [good]), tokenLoop_space t n x c r [] (by simp at hn; omega) (fun y hy => ht y (List.mem_cons_of_mem _ hy)) hc]
    dsimp only
    rw [if_pos hc]
    rfl

/-- The last token, with nothing after it: it is read, and the stream has failed. -/
theorem c60_last_token {w t : Bytes} (hw : Blank w) (ht : Token t) {n : Nat} (hn : t.length ≤ n) :
    extract n (good (w ++ t)) = some (ended, t) := by
  obtain ⟨hne, ht⟩ := ht
  cases t with
  | nil => exact absurd rfl hne
  | cons x t =>
    have hx := ht x List.mem_cons_self
    obtain ⟨c, hc, h⟩ := tokenLoop_end t n x [] (by simp at hn; omega) (fun y hy => ht y (List.mem_cons_of_mem _ hy)) hx
    unfold extract
    try rw [isspace_eq]
    rw [getChar_token hw hx]
    dsimp only
    rw [if_pos (by simp [good]), h]
    dsimp only
    rw [if_neg (by simp [hc])]
    rfl

/-- No token left: the String is empty and the stream has failed. -/
theorem c60_no_token {w : Bytes} (hw : Blank w) (n : Nat) : extract n (good w) = some (ended, []) := by
  unfold extract getChar
  try rw [isspace_eq]
  rw [if_neg (by simp [good])]
  have : (good w).unread.dropWhile space = [] := by
    show w.dropWhile space = _
    have := dropWhile_blank hw []
    rwa [List.append_nil] at this
  rw [this]
  rfl

theorem lineLoop_eq : ∀ (l : Bytes) (n : Nat) (ch : UInt8) (r acc : Bytes), l.length < n → 10 ∉ l →
    lineLoop n (good (l ++ 10 :: r)) ch acc = some (good r, acc ++ l)
  | [], n + 1, ch, r, acc, _, _ => by
    unfold lineLoop
    rw [List.nil_append, get_good]
    simp
  | x :: l, n + 1, ch, r, acc, hn, hl => by
    have hx : x ≠ 10 := fun e => hl (e ▸ List.mem_cons_self)
    unfold lineLoop
    rw [List.cons_append, get_good]
    dsimp only
    rw [if_pos ⟨by simp [good], hx⟩, lineLoop_eq l n x r _ (by simp at hn; omega) (fun h => hl (List.mem_cons_of_mem _ h))]
    simp

theorem lineLoop_end : ∀ (l : Bytes) (n : Nat) (ch : UInt8) (acc : Bytes), l.length < n → 10 ∉ l →
    lineLoop n (good l) ch acc = some (ended, acc ++ l)
  | [], n + 1, ch, acc, _, _ => by
    unfold lineLoop
    rw [get_end]
    simp [ended]
  | x :: l, n + 1, ch, acc, hn, hl => by
    have hx : x ≠ 10 := fun e => hl (e ▸ List.mem_cons_self)
    unfold lineLoop
    rw [get_good]
    dsimp only
    rw [if_pos ⟨by simp [good], hx⟩, lineLoop_end l n x _ (by simp at hn; omega) (fun h => hl (List.mem_cons_of_mem _ h))]
    simp

/-- A line with its newline: the line is read and the newline consumed. -/
theorem c60_getline {l r : Bytes} (hl : 10 ∉ l) {n : Nat} (hn : l.length < n) : getline n (good (l ++ 10 :: r)) = some (good r, l) :=
  lineLoop_eq l n 0 r [] hn hl

/-- Text without a newline: all is read, and the stream has failed. -/
theorem c60_last_line {l : Bytes} (hl : 10 ∉ l) {n : Nat} (hn : l.length < n) : getline n (good l) = some (ended, l) :=
  lineLoop_end l n 0 [] hn hl

/-- A stream that ended stays so, and nothing more is read. -/
theorem c60_after_end {n : Nat} : extract n ended = some (ended, []) ∧ (0 < n → getline n ended = some (ended, [])) := by
  refine ⟨rfl, fun h => ?_⟩
  cases n with
  | zero => omega
  | succ n => rfl

/-- From a stream that was at its end or had failed before the call nothing is read: the String is empty, no
byte is consumed, and the stream has failed. -/
theorem c60_bad {is : IStream} (h : is.eof = true ∨ is.fail = true) {n : Nat} :
    extract n is = some ({ is with fail := true }, []) ∧ (0 < n → getline n is = some ({ is with fail := true }, [])) := by
  constructor
  · unfold extract getChar
    try rw [isspace_eq]
    rw [if_pos h]
    rfl
  · intro hn
    cases n with
    | zero => omega
    | succ n =>
      unfold getline lineLoop get
      rw [if_pos h]
      rfl

/-- Bytes that are there but come after an end-of-file condition are left alone. -/
example : getline 3 ⟨[97, 10], true, false⟩ = some (⟨[97, 10], true, true⟩, []) := (c60_bad (Or.inl rfl)).2 (by decide)

/-- The text with the given lines, each ended by a newline. -/
def linesText (ls : List Bytes) : Bytes := (ls.map fun l => l ++ [10]).flatten

/-- A loop on `getline` yields every line that is ended by a newline, in order; text after the last newline is
not yielded. -/
theorem c60_lines_partial : ∀ (ls : List Bytes) (last : Bytes), (∀ l ∈ ls, 10 ∉ l) → 10 ∉ last → ∀ {n : Nat}, ls.length < n →
    readLines n (good (linesText ls ++ last)) = some (ended, ls)
  | [], last, _, hlast, n + 1, _ => by
    unfold readLines
    have e : linesText [] ++ last = last := rfl
    rw [e, c60_last_line hlast (by show last.length < last.length + 1; omega)]
    rfl
  | l :: ls, last, hls, hlast, n + 1, hn => by
    unfold readLines
    have e : linesText (l :: ls) ++ last = l ++ 10 :: (linesText ls ++ last) := by simp [linesText]
    rw [e, c60_getline (hls l List.mem_cons_self) (by show l.length < (l ++ 10 :: (linesText ls ++ last)).length + 1; simp; omega)]
    dsimp only
    rw [if_neg (by simp [good]), c60_lines_partial ls last (fun x hx => hls x (List.mem_cons_of_mem _ hx)) hlast (by simp at hn; omega)]

/-- A loop on `>>` yields every token that is followed by whitespace, in order. -/
theorem c60_tokens_partial : ∀ (ts : List (Bytes × Bytes × UInt8)) (w t : Bytes), (∀ x ∈ ts, Blank x.1 ∧ Token x.2.1 ∧ space x.2.2 = true) →
    Blank w → (t = [] ∨ Token t) → ∀ {n : Nat}, ts.length < n → ∀ (w0 : Bytes), Blank w0 →
    readTokens n (good (w0 ++ (ts.map fun x => x.1 ++ x.2.1 ++ [x.2.2]).flatten ++ w ++ t)) = some (ended, ts.map (·.2.1))
  | [], w, t, _, hw, ht, n + 1, _, w0, hw0 => by
    have hw' : Blank (w0 ++ w) := fun c hc => (List.mem_append.mp hc).elim (hw0 c) (hw c)
    unfold readTokens
    have e : w0 ++ (List.map (fun x : Bytes × Bytes × UInt8 => x.1 ++ x.2.1 ++ [x.2.2]) []).flatten ++ w ++ t = (w0 ++ w) ++ t := by simp
    rw [e]
    have : extract ((good (w0 ++ w ++ t)).unread.length + 1) (good (w0 ++ w ++ t)) = some (ended, t) := by
      rcases ht with rfl | ht
      · rw [List.append_nil]; exact c60_no_token hw' _
      · exact c60_last_token hw' ht (by show t.length ≤ (w0 ++ w ++ t).length + 1; simp; omega)
    rw [this]
    rfl
  | x :: ts, w, t, hts, hw, ht, n + 1, hn, w0, hw0 => by
    obtain ⟨h1, h2, h3⟩ := hts x List.mem_cons_self
    have hw' : Blank (w0 ++ x.1) := fun c hc => (List.mem_append.mp hc).elim (hw0 c) (h1 c)
    unfold readTokens
    have e : w0 ++ (List.map (fun x : Bytes × Bytes × UInt8 => x.1 ++ x.2.1 ++ [x.2.2]) (x :: ts)).flatten ++ w ++ t =
        (w0 ++ x.1) ++ x.2.1 ++ x.2.2 :: ((List.map (fun x : Bytes × Bytes × UInt8 => x.1 ++ x.2.1 ++ [x.2.2]) ts).flatten ++ w ++ t) := by simp
    rw [e, c60_token hw' h2 h3 (by
      simp [good]
      omega)]
    dsimp only
    rw [if_neg (by simp [good])]
    have ih := c60_tokens_partial ts w t (fun y hy => hts y (List.mem_cons_of_mem _ hy)) hw ht (n := n) (by simp at hn; omega) [x.2.2]
      (fun c hc => by rw [List.mem_singleton.mp hc]; exact h3)
    have e2 : [x.2.2] ++ (List.map (fun x : Bytes × Bytes × UInt8 => x.1 ++ x.2.1 ++ [x.2.2]) ts).flatten ++ w ++ t =
      x.2.2 :: ((List.map (fun x : Bytes × Bytes × UInt8 => x.1 ++ x.2.1 ++ [x.2.2]) ts).flatten ++ w ++ t) := by simp
    rw [e2] at ih
    rw [ih]
    rfl

example := c60_token (w := [32]) (t := [97, 98]) (c := 10) (r := [99]) (by unfold Blank; decide) (by unfold Token; decide) (by decide) (n := 2) (by decide)
example : readLines 5 (good [97, 10, 10, 98, 10]) = some (ended, [[97], [], [98]]) := by decide
example : readTokens 5 (good [32, 97, 32, 9, 98, 99, 10]) = some (ended, [[97], [98, 99]]) := by decide

/-- Refutation: of `a\nb` only the first line is yielded. -/
theorem c60_refuted_last_line : readLines 5 (good [97, 10, 98]) = some (ended, [[97]]) := by decide

/-- Refutation: of `a b` only the first token is yielded. -/
theorem c60_refuted_last_token : readTokens 5 (good [97, 32, 98]) = some (ended, [[97]]) := by decide

end Bdlib.Ios
