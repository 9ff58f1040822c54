import Mathlib.Data.List.Basic
import Mathlib.Tactic.SplitIfs

/-!
# Model of `um2::logger` (include/um2/common/logger.hpp, src/common/logger.cpp)

Release build: `ASSERT` is compiled out.  Writing outside `buffer[256]`, or forming a pointer beyond
one past its end, is undefined behaviour (`none`).  The text of a message argument (`%d`, `%f`, ...)
is a parameter; only how it reaches the buffer is modelled.  The fatal branch for a failed `fprintf`
is not modelled.
-/

namespace Verif.Logger

abbrev Byte := UInt8

/-- The settings, logger.cpp 24-27, common/settings.hpp. -/
structure Cfg where
  level : Int
  timestamped : Bool
  colorized : Bool
  exitOnError : Bool

/-- `buffer` (logger.cpp 30, 256 bytes) and `buffer_pos`. -/
structure Pos where
  buf : List Byte
  pos : Nat

/-- A message argument: strings, characters and booleans are copied (logger.cpp 66-96, 176-212),
numbers go through `snprintf` (98-174). -/
inductive Arg where
  | copy (t : List Byte)
  | fmt (t : List Byte)

/-- The characters of an argument. -/
def Arg.text : Arg → List Byte
  | .copy t => t
  | .fmt t => t

/-- Write `t` at offset `i` of the buffer. -/
def wr (b : List Byte) (i : Nat) (t : List Byte) : Option (List Byte) :=
  if i + t.length ≤ 256 then some (b.take i ++ t ++ b.drop (i + t.length)) else none

/-- `buffer_pos[0..] = t; buffer_pos += t.size()`, e.g. `appendStringViewToBuffer`,
logger.cpp 67-74. -/
def put (s : Pos) (t : List Byte) : Option Pos := do
  let b ← wr s.buf s.pos t
  pure ⟨b, s.pos + t.length⟩

/-- `toBuffer`, logger.cpp 78-212. `snprintf` writes at most `buffer_end - buffer_pos` characters
including the terminator; the position moves by the full length. -/
def toBuffer (s : Pos) : Arg → Option Pos
  | .copy t => put s t
  | .fmt t =>
    if s.pos + t.length ≤ 256 then
      if s.pos = 256 then some ⟨s.buf, 256⟩
      else do
        let b ← wr s.buf s.pos (t.take (255 - s.pos) ++ [0])
        pure ⟨b, s.pos + t.length⟩
    else none

/-- `value + '0'` as a character. -/
def digit (n : Nat) : Byte := UInt8.ofNat (n + 48)

/-- `addTimestamp`, logger.cpp 221-273, with `ms` the elapsed time in milliseconds (rounded down).
Its conversion to `Int` is undefined from `2^31` on. -/
def addTimestamp (c : Cfg) (ms : Nat) (s : Pos) : Option Pos :=
  if c.timestamped then
    if ms < 2 ^ 31 then
      let hours := ms / 1000 / 3600
      let minutes := (ms / 1000 / 60) % 60
      let seconds := ms / 1000 % 60
      let milli := ms % 1000
      put s ([91] ++
        (if hours < 10 then [48, digit hours] else [digit (hours / 10), digit (hours % 10)]) ++
        [58] ++
        (if minutes < 10 then [48, digit minutes]
          else [digit (minutes / 10), digit (minutes % 10)]) ++
        [58] ++
        (if seconds < 10 then [48, digit seconds]
          else [digit (seconds / 10), digit (seconds % 10)]) ++
        [46] ++
        (if milli < 10 then [48, 48, digit milli]
          else if milli < 100 then [48, digit (milli / 10), digit (milli % 10)]
          else [digit (milli / 100), digit (milli % 100 / 10), digit (milli % 100 % 10)]) ++
        [93, 32])
    else none
  else some s

/-- `addColor`, logger.cpp 276-306. In the default case the code does `buffer_pos -= 7` and then
`buffer_pos += 7`; the model keeps the position (the intermediate pointer, before the start of the
buffer, is never dereferenced). -/
def addColor (c : Cfg) (lvl : Int) (s : Pos) : Option Pos :=
  if c.colorized then do
    let b ← wr s.buf s.pos [27, 91, 49, 59, 51]
    let b ← wr b (s.pos + 6) [109]
    if lvl = 1 then do
      let b ← wr b (s.pos + 5) [49]
      pure ⟨b, s.pos + 7⟩
    else if lvl = 2 then do
      let b ← wr b (s.pos + 5) [51]
      pure ⟨b, s.pos + 7⟩
    else if lvl = 4 then do
      let b ← wr b (s.pos + 5) [53]
      pure ⟨b, s.pos + 7⟩
    else pure ⟨b, s.pos⟩
  else some s

/-- `addLevel`, logger.cpp 309-358. -/
def addLevel (lvl : Int) (s : Pos) : Option Pos := do
  let s ← put s (if lvl = 1 then [69, 82, 82, 79, 82]
    else if lvl = 2 then [87, 65, 82, 78]
    else if lvl = 3 then [73, 78, 70, 79]
    else if lvl = 4 then [68, 69, 66, 85, 71]
    else [85, 78, 75, 78, 79, 87, 78])
  put s [32, 45, 32]

/-- `setPostamble`, logger.cpp 372-387. -/
def setPostamble (c : Cfg) (s : Pos) : Option (List Byte) :=
  (if c.colorized then put s [27, 91, 48, 109] else some s).bind fun s => wr s.buf s.pos [0]

/-- Compose a line: `setPreamble` (logger.cpp 352-359), the arguments, `setPostamble`
(logger.hpp 113-121). -/
def compose (c : Cfg) (ms : Nat) (lvl : Int) (args : List Arg) (buf : List Byte) :
    Option (List Byte) := do
  let s ← addColor c lvl ⟨buf, 0⟩
  let s ← addTimestamp c ms s
  let s ← addLevel lvl s
  let s ← args.foldlM toBuffer s
  setPostamble c s

/-- Where a line goes. -/
inductive Stream where
  | out
  | err
  deriving DecidableEq

/-- The state of the program as far as logging is concerned: the buffer, what has been printed, and
whether `exit(1)` has been called. -/
structure St where
  buf : List Byte
  printed : List (Stream × List Byte)
  exited : Bool

/-- `printMessage`, logger.hpp 107-140. `fprintf("%s\n", buffer)` prints up to the first NUL. -/
def printMessage (c : Cfg) (ms : Nat) (lvl : Int) (args : List Arg) (st : St) : Option St :=
  if st.exited then some st
  else if lvl ≤ c.level then do
    let b ← compose c ms lvl args st.buf
    let text := b.takeWhile (· ≠ 0) ++ [10]
    if lvl = 1 then
      pure ⟨b, st.printed ++ [(Stream.err, text)], c.exitOnError⟩
    else
      pure ⟨b, st.printed ++ [(Stream.out, text)], false⟩
  else some st

/-- One message, with the settings and the clock at that time. -/
structure Msg where
  cfg : Cfg
  ms : Nat
  lvl : Int
  args : List Arg

/-- A sequence of messages, from the initial state (logger.cpp 30: the buffer is zeroed). -/
def run (ms : List Msg) : Option St :=
  ms.foldlM (fun st m => printMessage m.cfg m.ms m.lvl m.args st) ⟨List.replicate 256 0, [], false⟩

end Verif.Logger
