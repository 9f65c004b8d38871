import Verif.Model.Text

/-!
# Model of the native timer: `_lib/include/Timer.hh`, `_lib/src/Timer.cc`

Clock readings are arguments of the calls.  `double` operations are followed by a rounding `fl`; numbers are rationals (no infinities or NaN).  `dbg` says
whether `assert` is compiled in.  `sysconf(_SC_CLK_TCK)` is the parameter `hz`.
-/

namespace EdgeEval.CTimer

open Text

/-- `struct timeval`: seconds and microseconds. -/
structure Tv where
  sec : ℤ
  usec : ℤ
  deriving DecidableEq, Repr

/-- `struct tms`: user and system clock ticks. -/
structure Tms where
  utime : ℤ
  stime : ℤ
  deriving DecidableEq, Repr

/-- What can go wrong: a failing `assert`, or the use of a member that was never written. -/
inductive Fault where
  | assertion
  | uninitialised
  deriving DecidableEq, Repr

/-- Timer.hh:48-60  the members of `Timer`; `none` is an uninitialised member. -/
structure St where
  running : Bool
  eStart : Option Tv
  eStop : Option Tv
  elapsed : ℚ
  cStart : Option Tms
  cStop : Option Tms
  user : ℚ
  system : ℚ
  deriving DecidableEq, Repr

/-- Timer.hh:73-78 `reset`. -/
def reset (s : St) : St := { s with running := false, elapsed := 0, user := 0, system := 0 }

/-- Timer.hh:63-66  the constructor. -/
def fresh : St := reset ⟨false, none, none, 0, none, none, 0, 0⟩

/-- `assert (cond)`. -/
def check (dbg cond : Bool) : Except Fault Unit := if dbg && !cond then .error .assertion else .ok ()

/-- Timer.hh:80-87 `start`, at the clock readings `t` and `c`. -/
def start (dbg : Bool) (t : Tv) (c : Tms) (s : St) : Except Fault St := do
  check dbg (!s.running)
  .ok { s with running := true, eStart := some t, cStart := some c }

/-- Timer.cc:27-35  seconds between two readings of `gettimeofday`. -/
def interval (fl : ℚ → ℚ) (a b : Tv) : ℚ :=
  let sec := b.sec - a.sec
  let usec := b.usec - a.usec
  let p := if usec < 0 then (sec - 1, usec + 1000000) else (sec, usec)
  fl (fl p.1 + fl (fl p.2 / 1000000))

/-- Timer.cc:24-43 `_compute`. -/
def compute (fl : ℚ → ℚ) (hz : ℚ) (s : St) : Except Fault St :=
  match s.eStart, s.eStop, s.cStart, s.cStop with
  | some a, some b, some c, some d =>
    .ok { s with
      elapsed := fl (s.elapsed + interval fl a b)
      user := fl (s.user + fl (fl (d.utime - c.utime : ℤ) / hz))
      system := fl (s.system + fl (fl (d.stime - c.stime : ℤ) / hz)) }
  | _, _, _, _ => .error .uninitialised

/-- Timer.hh:89-97 `stop`, at the clock readings `t` and `c`. -/
def stop (dbg : Bool) (fl : ℚ → ℚ) (hz : ℚ) (t : Tv) (c : Tms) (s : St) : Except Fault St := do
  check dbg s.running
  let s ← compute fl hz { s with eStop := some t, cStop := some c }
  .ok { s with running := false }

/-- Timer.hh:99-104 `cpu`. -/
def cpu (dbg : Bool) (fl : ℚ → ℚ) (s : St) : Except Fault ℚ := do
  check dbg (!s.running)
  .ok (fl (s.user + s.system))

/-- Timer.hh:106-111 `user`. -/
def userTime (dbg : Bool) (s : St) : Except Fault ℚ := do
  check dbg (!s.running)
  .ok s.user

/-- Timer.hh:113-118 `system`. -/
def systemTime (dbg : Bool) (s : St) : Except Fault ℚ := do
  check dbg (!s.running)
  .ok s.system

/-- Timer.hh:120-125 `elapsed`. -/
def elapsedTime (dbg : Bool) (s : St) : Except Fault ℚ := do
  check dbg (!s.running)
  .ok s.elapsed

/-- A call that changes the timer, with its clock readings. -/
inductive Call where
  | start (t : Tv) (c : Tms)
  | stop (t : Tv) (c : Tms)
  | reset
  deriving DecidableEq, Repr

/-- One call. -/
def step (dbg : Bool) (fl : ℚ → ℚ) (hz : ℚ) (s : St) : Call → Except Fault St
  | .start t c => start dbg t c s
  | .stop t c => stop dbg fl hz t c s
  | .reset => .ok (reset s)

/-- A sequence of calls. -/
def run (dbg : Bool) (fl : ℚ → ℚ) (hz : ℚ) : List Call → St → Except Fault St
  | [], s => .ok s
  | c :: cs, s => step dbg fl hz s c >>= run dbg fl hz cs

/-- Timer.cc:52-54  the number of decimals used. -/
def clampPrec (precision : ℤ) : Nat := (if (if precision < 0 then 0 else precision) > 9 then 9 else if precision < 0 then 0 else precision).toNat

/-- Timer.cc:55-56  `base`, a 64-bit unsigned number. -/
def base (p : Nat) : Nat := (List.range p).foldl (fun b _ => b * 10 % 2 ^ 64) 1

/-- `%0kllu` of a number. -/
def padded (k n : Nat) : Str := (zfill k (pyStr n)).map digitCh

/-- Timer.cc:58-61  `(uint64) rint(fabs(sec) * base)`; the conversion of a number of 2^64 or more is undefined. -/
def ticks (fl : ℚ → ℚ) (sec : ℚ) (p : Nat) : Option Nat :=
  let t := (roundEven (fl (|sec| * base p))).toNat
  if t < 2 ^ 64 then some t else none

/-- Timer.cc:61-77  the characters written to the static buffer (without the final NUL); `p` is the clamped precision. -/
def textOf (neg : Bool) (t p : Nat) : Str :=
  let rsec := t / base p
  let frac := t % base p
  (if neg then ['-'] else []) ++ natStr (rsec / 3600) ++ ':' :: padded 2 (rsec / 60 % 60) ++ ':' :: padded 2 (rsec % 60) ++
    (if p > 0 then '.' :: padded p frac else [])

/-- Timer.cc:47-78 `formatTime`: the new contents of the static buffer, or `none` if the conversion is undefined.  The returned pointer always points at
that buffer. -/
def formatTime (fl : ℚ → ℚ) (sec : ℚ) (precision : ℤ) : Option Str :=
  (ticks fl sec (clampPrec precision)).map fun t => textOf (decide (sec < 0)) t (clampPrec precision)

/-- Timer.cc:73-74  the format built in the 10-byte buffer `fmt`: `.%0<p>lld`. -/
def fracFormat (p : Nat) : Str := ['.', '%', '0'] ++ natStr p ++ ['l', 'l', 'd']

/-- Successive calls of `formatTime`: contents of the one static buffer afterwards (empty before the first call). -/
def bufferAfter (fl : ℚ → ℚ) : List (ℚ × ℤ) → Str → Option Str
  | [], b => some b
  | c :: cs, _ => (formatTime fl c.1 c.2).bind (bufferAfter fl cs)

end EdgeEval.CTimer
