import Verif.Model.Text

/-!
# Model of the native strings and exceptions: `_lib/src/String.cc`, `_lib/include/String.hh`, `_lib/src/Exception.cc`, `_lib/include/Exception.hh`

A heap of character blocks; `'\x00'` is the terminating NUL.  `unsigned` arithmetic wraps at 2^32.  A format string is a list of pieces (text, `%d`, `%s`),
its arguments are attached to the pieces; text pieces contain neither `%` nor NUL.  The temporary buffers of `_append (fmt, ap)` and `nextLine` are local:
they are not blocks of the heap.  Pointers handed to functions are literals or come from `text ()` of a string at the time of the call.
Memory never runs out.
-/

namespace EdgeEval.CString

open Text

/-- The NUL character. -/
def nul : Char := Char.ofNat 0

/-- What can go wrong: use of memory that is not allocated or was never written, an index outside a block, `delete` of something that is no block, `memcpy`
between overlapping ranges, the second use of a `va_list`, overflow of an `int`, a name that is no object (a C++ program cannot contain it), a failing
`assert`. -/
inductive Fault where
  | dangling
  | outOfBounds
  | uninitialised
  | badFree
  | overlap
  | vaReuse
  | intOverflow
  | notInScope
  | assertion
  deriving DecidableEq, Repr

/-- A block of `char`s; `none` is a cell that was never written. -/
structure Blk where
  size : Nat
  cell : Nat → Option Char

/-- The heap; addresses are never used twice. -/
structure Mem where
  blk : Nat → Option Blk
  next : Nat

/-- `new char [n]`. -/
def alloc (n : Nat) (m : Mem) : Nat × Mem :=
  (m.next, ⟨fun p => if p = m.next then some ⟨n, fun _ => none⟩ else m.blk p, m.next + 1⟩)

/-- `delete [] p`, `free (p)`. -/
def free (p : Nat) (m : Mem) : Except Fault Mem :=
  match m.blk p with
  | none => .error .badFree
  | some _ => .ok ⟨fun q => if q = p then none else m.blk q, m.next⟩

/-- Read of one character. -/
def rd (p i : Nat) (m : Mem) : Except Fault Char :=
  match m.blk p with
  | none => .error .dangling
  | some b => if i < b.size then (match b.cell i with | some c => .ok c | none => .error .uninitialised) else .error .outOfBounds

/-- Write of one character. -/
def wr (p i : Nat) (c : Char) (m : Mem) : Except Fault Mem :=
  match m.blk p with
  | none => .error .dangling
  | some b =>
    if i < b.size then
      .ok ⟨fun q => if q = p then some ⟨b.size, fun j => if j = i then some c else b.cell j⟩ else m.blk q, m.next⟩
    else .error .outOfBounds

/-- Read of `n` characters from position `off`. -/
def rdN (p : Nat) (m : Mem) : (n off : Nat) → Except Fault Str
  | 0, _ => .ok []
  | n + 1, off => do
    let c ← rd p off m
    let cs ← rdN p m n (off + 1)
    .ok (c :: cs)

/-- Write of characters from position `off`. -/
def wrN (p : Nat) : (cs : Str) → (off : Nat) → Mem → Except Fault Mem
  | [], _, m => .ok m
  | c :: cs, off, m => do
    let m ← wr p off c m
    wrN p cs (off + 1) m

/-- `memcpy` between blocks: the ranges must not overlap. -/
def memcpy (dst doff src soff n : Nat) (m : Mem) : Except Fault Mem := do
  if dst = src ∧ doff < soff + n ∧ soff < doff + n then .error .overlap
  let cs ← rdN src m n soff
  wrN dst cs doff m

/-- The characters from position `off` up to the NUL: what `strlen` and `%s` see. -/
def cstrGo (p : Nat) (m : Mem) : (fuel off : Nat) → Except Fault Str
  | 0, _ => .error .outOfBounds
  | k + 1, off => do
    let c ← rd p off m
    if c = nul then .ok [] else do
      let cs ← cstrGo p m k (off + 1)
      .ok (c :: cs)

/-- The C string at position `off` of block `p`. -/
def cstr (p off : Nat) (m : Mem) : Except Fault Str :=
  match m.blk p with
  | none => .error .dangling
  | some b => cstrGo p m (b.size - off + 1) off

/-- String.hh:83-85  the members of a `String`. -/
structure Obj where
  length : Nat
  size : Nat
  ptr : Nat
  deriving DecidableEq, Repr

/-- String.cc:25-31 `String ()`. -/
def mkEmpty (m : Mem) : Except Fault (Obj × Mem) := do
  let r := alloc (16 + 1) m
  let m ← wr r.1 0 nul r.2
  .ok (⟨0, 16 + 1, r.1⟩, m)

/-- String.cc:33-39 `String (const String&)`. -/
def mkCopy (o : Obj) (m : Mem) : Except Fault (Obj × Mem) := do
  let r := alloc o.size m
  let m ← memcpy r.1 0 o.ptr 0 ((o.length + 1) % 2 ^ 32) r.2
  .ok (⟨o.length, o.size, r.1⟩, m)

/-- String.cc:180-191 `_grow`. -/
def grow (minSize : Nat) (o : Obj) (m : Mem) : Except Fault (Obj × Mem) :=
  if minSize > o.size then do
    let size := (o.size + minSize) % 2 ^ 32
    let r := alloc size m
    let m ← memcpy r.1 0 o.ptr 0 ((o.length + 1) % 2 ^ 32) r.2
    let m ← free o.ptr m
    .ok (⟨o.length, size, r.1⟩, m)
  else .ok (o, m)

/-- Where `n` characters to be appended come from: a local buffer or literal, or a position in a block. -/
inductive Src where
  | loc (cs : Str)
  | blk (p off : Nat)
  deriving DecidableEq, Repr

/-- String.cc:147  `memcpy (_text + _length, s, length)`. -/
def copyIn (n : Nat) (src : Src) (o : Obj) (m : Mem) : Except Fault Mem :=
  match src with
  | .loc cs => if cs.length < n then .error .outOfBounds else wrN o.ptr (cs.take n) o.length m
  | .blk p off => memcpy o.ptr o.length p off n m

/-- String.cc:143-151 `_append (length, s)`. -/
def appendN (n : Nat) (src : Src) (o : Obj) (m : Mem) : Except Fault (Obj × Mem) := do
  let r ← grow ((n + o.length + 1) % 2 ^ 32) o m
  let o := r.1
  let m := r.2
  if n > 0 then do
    let m ← copyIn n src o m
    let o := { o with length := (o.length + n) % 2 ^ 32 }
    let m ← wr o.ptr o.length nul m
    .ok (o, m)
  else .ok (o, m)

/-- An argument of type `const char*`: a literal, or a position in the block of a string. -/
inductive CArg where
  | lit (s : Str)
  | at (p off : Nat)
  deriving DecidableEq, Repr

/-- The C string an argument points at. -/
def CArg.str (m : Mem) : CArg → Except Fault Str
  | .lit s => .ok (s.takeWhile (· ≠ nul))
  | .at p off => cstr p off m

/-- A piece of a format string with its argument. -/
inductive Piece where
  | text (s : Str)
  | dec (z : ℤ)
  | chars (a : CArg)
  deriving DecidableEq, Repr

/-- Does the piece take an argument from the `va_list`? -/
def Piece.takesArg : Piece → Bool
  | .text _ => false
  | _ => true

/-- Length of the piece in the format string (`%d` and `%s` have two characters). -/
def Piece.fmtLen : Piece → Nat
  | .text s => s.length
  | _ => 2

/-- What a piece prints. -/
def Piece.render (m : Mem) : Piece → Except Fault Str
  | .text s => .ok s
  | .dec z => .ok (intStr z)
  | .chars a => a.str m

/-- What a format prints. -/
def render (m : Mem) : List Piece → Except Fault Str
  | [] => .ok []
  | f :: fs => do
    let a ← f.render m
    let b ← render m fs
    .ok (a ++ b)

/-- String.cc:161-174  the loop that looks for a buffer of sufficient size: `cnt` characters are needed, `args` says that the format takes arguments.  The
first `vsnprintf` uses up `ap`; a second one with arguments is undefined. -/
def sizeLoop (cnt : Nat) (args : Bool) : (rounds bufLen : Nat) → Except Fault Nat
  | 0, _ => .error .intOverflow
  | k + 1, bufLen =>
    if cnt ≥ bufLen - 1 then
      if args then .error .vaReuse
      else if bufLen * 2 > 2 ^ 31 - 1 then .error .intOverflow
      else sizeLoop cnt args k (bufLen * 2)
    else .ok bufLen

/-- String.cc:158-178 `_append (fmt, ap)`. -/
def appendF (fs : List Piece) (o : Obj) (m : Mem) : Except Fault (Obj × Mem) := do
  let s ← render m fs
  let _ ← sizeLoop s.length (fs.any Piece.takesArg) 32 128
  let t := s.takeWhile (· ≠ nul)
  appendN (t.length % 2 ^ 32) (.loc t) o m

/-- String.cc:41-54 `String (fmt, ...)`. -/
def mkFmt (fs : List Piece) (m : Mem) : Except Fault (Obj × Mem) := do
  let size := ((fs.map Piece.fmtLen).sum + 1) % 2 ^ 32
  let r := alloc size m
  let m ← wr r.1 0 nul r.2
  appendF fs ⟨0, size, r.1⟩ m

/-- String.cc:56-60 `~String`. -/
def destroy (o : Obj) (m : Mem) : Except Fault Mem := free o.ptr m

/-- String.cc:81-86 `clear`. -/
def clear (o : Obj) (m : Mem) : Except Fault (Obj × Mem) := do
  let m ← wr o.ptr 0 nul m
  .ok ({ o with length := 0 }, m)

/-- String.cc:71-79 `operator= (const char*)`; `none` is a null pointer. -/
def assignC (a : Option CArg) (o : Obj) (m : Mem) : Except Fault (Obj × Mem) := do
  let r ← clear o m
  match a with
  | none => .ok r
  | some a => appendF [.chars a] r.1 r.2

/-- String.cc:62-69 `operator= (const String&)` for another object. -/
def assign (that o : Obj) (m : Mem) : Except Fault (Obj × Mem) := do
  let r ← clear o m
  appendF [.chars (.at that.ptr 0)] r.1 r.2

/-- String.cc:88-92 `append (char)`. -/
def appendChar (c : Char) (o : Obj) (m : Mem) : Except Fault (Obj × Mem) := appendN 1 (.loc [c]) o m

/-- String.cc:110-115 `operator[]`. -/
def index (i : Nat) (o : Obj) (m : Mem) : Except Fault Char :=
  if i < o.length then rd o.ptr i m else .error .assertion

/-- `fgets (buf, 128, fp)`: at most 127 characters, up to and including a newline; `none` at the end of the file. -/
def fgets (file : Str) : Option (Str × Str) :=
  if file = [] then none
  else
    let line := (file.take 127).takeWhile (· ≠ '\n')
    if line.length < (file.take 127).length then some (line ++ ['\n'], file.drop (line.length + 1))
    else some (line, file.drop line.length)

/-- String.cc:126-133  the loop of `nextLine`; the second component is the rest of the file. -/
def lineLoop : (fuel : Nat) → (file : Str) → Obj → Mem → Except Fault (Bool × Str × Obj × Mem)
  | 0, _, _, _ => .error .outOfBounds
  | k + 1, file, o, m =>
    match fgets file with
    | none =>
      if o.length > 0 then do
        let c ← rd o.ptr (o.length - 1) m
        if c = '\n' then .error .assertion else .ok (true, file, o, m)
      else .ok (false, file, o, m)
    | some (buf, file) => do
      let t := buf.takeWhile (· ≠ nul)
      let r ← appendN (t.length % 2 ^ 32) (.loc t) o m
      let o := r.1
      let m := r.2
      let c ← rd o.ptr ((o.length + 2 ^ 32 - 1) % 2 ^ 32) m
      if c = '\n' then do
        let o := { o with length := o.length - 1 }
        let m ← wr o.ptr o.length nul m
        .ok (true, file, o, m)
      else lineLoop k file o m

/-- String.cc:117-141 `nextLine`; every round but the last takes a character from the file, so `length + 1` rounds are enough. -/
def nextLine (file : Str) (o : Obj) (m : Mem) : Except Fault (Bool × Str × Obj × Mem) := do
  let r ← clear o m
  lineLoop (file.length + 1) file r.1 r.2

/-- `strcmp` on characters as `unsigned char`: negative, zero or positive. -/
def strcmp : Str → Str → ℤ
  | [], [] => 0
  | [], _ :: _ => -1
  | _ :: _, [] => 1
  | a :: as, b :: bs => if a = b then strcmp as bs else if a.toNat < b.toNat then -1 else 1

/-- String.hh:88-135  the comparison operators compare the C strings of both sides. -/
def compare (a b : CArg) (m : Mem) : Except Fault ℤ := do
  let s ← a.str m
  let t ← b.str m
  .ok (strcmp s t)

/-- `strdup`. -/
def strdup (a : CArg) (m : Mem) : Except Fault (Nat × Mem) := do
  let s ← a.str m
  let r := alloc (s.length + 1) m
  let m ← wrN r.1 (s ++ [nul]) 0 r.2
  .ok (r.1, m)

/-- Exception.cc:22-25  `Exception (msg)`: the member `_msg`. -/
def excNew (a : CArg) (m : Mem) : Except Fault (Nat × Mem) := strdup a m

/-- Exception.cc:27-30  the copy constructor. -/
def excCopy (e : Nat) (m : Mem) : Except Fault (Nat × Mem) := strdup (.at e 0) m

/-- Exception.cc:32-35  the destructor. -/
def excDestroy (e : Nat) (m : Mem) : Except Fault Mem := free e m

/-- Exception.cc:37-41  `msg ()`, read as a C string. -/
def excMsg (e : Nat) (m : Mem) : Except Fault Str := cstr e 0 m

/-- Matrix.cc (throughout)  `throw Exception (String (fmt, ...))`: the temporary string is destroyed at the end of the expression. -/
def throwFmt (fs : List Piece) (m : Mem) : Except Fault (Nat × Mem) := do
  let r ← mkFmt fs m
  let e ← excNew (.at r.1.ptr 0) r.2
  let m ← destroy r.1 e.2
  .ok (e.1, m)

/-! ## Programs -/

/-- An argument of type `const char*` by name: a literal, or `y.text () + off`. -/
inductive Arg where
  | lit (s : Str)
  | text (y off : Nat)
  deriving DecidableEq, Repr

/-- A piece of a format string, with its argument by name. -/
inductive APiece where
  | text (s : Str)
  | dec (z : ℤ)
  | chars (a : Arg)
  deriving DecidableEq, Repr

/-- The statements of a program that uses strings; strings have numbers as names. -/
inductive Op where
  | new (x : Nat)
  | copy (x y : Nat)
  | fmt (x : Nat) (fs : List APiece)
  | del (x : Nat)
  | assign (x y : Nat)
  | assignC (x : Nat) (a : Option Arg)
  | clear (x : Nat)
  | appChar (x : Nat) (c : Char)
  | appN (x n : Nat) (a : Arg)
  | appF (x : Nat) (fs : List APiece)
  | nextLine (x : Nat) (file : Str)
  deriving DecidableEq, Repr

/-- The heap and the living strings. -/
structure St where
  mem : Mem
  objs : Nat → Option Obj

/-- Before the program. -/
def St.empty : St := ⟨⟨fun _ => none, 0⟩, fun _ => none⟩

/-- The string called `x`. -/
def St.get (s : St) (x : Nat) : Except Fault Obj :=
  match s.objs x with
  | some o => .ok o
  | none => .error .notInScope

/-- The result of a constructor is called `x`, a name not in use. -/
def St.bindNew (s : St) (x : Nat) (r : Except Fault (Obj × Mem)) : Except Fault St :=
  match s.objs x with
  | some _ => .error .notInScope
  | none => r >>= fun r => .ok ⟨r.2, fun y => if y = x then some r.1 else s.objs y⟩

/-- The string `x` after a member function. -/
def St.put (s : St) (x : Nat) (r : Except Fault (Obj × Mem)) : Except Fault St :=
  r >>= fun r => .ok ⟨r.2, fun y => if y = x then some r.1 else s.objs y⟩

/-- The pointer meant by an argument. -/
def St.arg (s : St) : Arg → Except Fault CArg
  | .lit t => .ok (.lit t)
  | .text y off => (s.get y).map fun o => .at o.ptr off

/-- The pieces with their pointers. -/
def St.pieces (s : St) : List APiece → Except Fault (List Piece)
  | [] => .ok []
  | .text t :: fs => (s.pieces fs).map (.text t :: ·)
  | .dec z :: fs => (s.pieces fs).map (.dec z :: ·)
  | .chars a :: fs => do
    let c ← s.arg a
    let r ← s.pieces fs
    .ok (.chars c :: r)

/-- Where the characters of `append (n, p)` lie. -/
def CArg.src : CArg → Src
  | .lit t => .loc t
  | .at p off => .blk p off

/-- One statement. `x = x` returns at once (String.cc:65). -/
def step (s : St) : Op → Except Fault St
  | .new x => s.bindNew x (mkEmpty s.mem)
  | .copy x y => s.get y >>= fun o => s.bindNew x (mkCopy o s.mem)
  | .fmt x fs => s.pieces fs >>= fun fs => s.bindNew x (mkFmt fs s.mem)
  | .del x => s.get x >>= fun o => destroy o s.mem >>= fun m => .ok ⟨m, fun y => if y = x then none else s.objs y⟩
  | .assign x y => s.get x >>= fun o => s.get y >>= fun that => if x = y then .ok s else s.put x (assign that o s.mem)
  | .assignC x none => s.get x >>= fun o => s.put x (assignC none o s.mem)
  | .assignC x (some a) => s.get x >>= fun o => s.arg a >>= fun a => s.put x (assignC (some a) o s.mem)
  | .clear x => s.get x >>= fun o => s.put x (clear o s.mem)
  | .appChar x c => s.get x >>= fun o => s.put x (appendChar c o s.mem)
  | .appN x n a => s.get x >>= fun o => s.arg a >>= fun a => s.put x (appendN n a.src o s.mem)
  | .appF x fs => s.get x >>= fun o => s.pieces fs >>= fun fs => s.put x (appendF fs o s.mem)
  | .nextLine x file => s.get x >>= fun o => s.put x ((nextLine file o s.mem).map fun r => (r.2.2.1, r.2.2.2))

/-- A program. -/
def run : List Op → St → Except Fault St
  | [], s => .ok s
  | op :: ops, s => step s op >>= run ops

end EdgeEval.CString
