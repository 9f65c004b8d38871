import Mathlib.Data.Int.Notation
import Mathlib.Order.Basic
import Mathlib.Data.Rat.Defs

/-!
# `include/Sort.hh`: the in-place sort of the native library

The array is a block of `size` elements; every access is checked against it and leaving it is the fault `oob`.
The comparison is an arbitrary function of the two *elements* (so it is deterministic), exactly like the
template's default and the documented way of customising it.  `int` values are unbounded: every index the
routines compute lies in `[start - 1, start + n]`.  Loops take a budget (`outOfFuel` when it is used up); the theorems show which budget always
suffices.  `assert` is the fault `assertion`.
-/

namespace EdgeEval.Sort

/-- What can go wrong. -/
inductive Fault
  | oob | assertion | outOfFuel
  deriving DecidableEq, Repr

/-- A block of memory behind the pointer `T* a`. -/
structure Arr (α : Type) where
  size : ℤ
  at_ : ℤ → α

variable {α : Type}

/-- `a[i]`, as an rvalue. -/
def Arr.read (a : Arr α) (i : ℤ) : Except Fault α :=
  if 0 ≤ i ∧ i < a.size then .ok (a.at_ i) else .error .oob

/-- `a[i] = x`. -/
def Arr.write (a : Arr α) (i : ℤ) (x : α) : Except Fault (Arr α) :=
  if 0 ≤ i ∧ i < a.size then .ok { a with at_ := fun k => if k = i then x else a.at_ k } else .error .oob

/-- Sort.hh:66-69 `sortSwap`. -/
def sortSwap (a : Arr α) (i j : ℤ) : Except Fault (Arr α) := do
  let tmp ← a.read i
  let y ← a.read j
  let b ← a.write i y
  b.write j tmp

/-- Sort.hh:70-75 `sortCmp`: the comparison of two elements the template uses by default; `lt` is `<` of the element type. -/
def defaultCmp (lt : α → α → Bool) (x y : α) : ℤ :=
  if lt x y then -1 else if lt y x then 1 else 0

/-- `sortCmp(cl,i,j)` for a comparison `cmp` of elements (Sort.hh:70-75, and the customisation of Sort.hh:37-39). -/
def sortCmp (cmp : α → α → ℤ) (a : Arr α) (i j : ℤ) : Except Fault ℤ := do
  let x ← a.read i
  let y ← a.read j
  pure (cmp x y)

/-- `for (int i = i0; i < i0 + count; i++) body(i)`, with a bound the body does not change. -/
def forUp {σ : Type} (body : ℤ → σ → Except Fault σ) : Nat → ℤ → σ → Except Fault σ
  | 0, _, s => .ok s
  | k + 1, i, s => do
    let s' ← body i s
    forUp body k (i + 1) s'

/-- Sort.hh:85-88, the inner loop of `__insertionSort`. -/
def insInner (cmp : α → α → ℤ) (start : ℤ) : Nat → ℤ → Arr α → Except Fault (Arr α)
  | 0, _, _ => .error .outOfFuel
  | f + 1, j, a =>
    if j > start then do
      let c ← sortCmp cmp a (j - 1) j
      if c ≤ 0 then pure a
      else do
        let a' ← sortSwap a (j - 1) j
        insInner cmp start f (j - 1) a'
    else .ok a

/-- Sort.hh:79-90 `__insertionSort`. -/
def insertionSort (F : Nat) (cmp : α → α → ℤ) (start n : ℤ) (a : Arr α) : Except Fault (Arr α) :=
  forUp (fun i a => insInner cmp start F (i + 1) a) (n - 1).toNat start a

/-- Sort.hh:102-107: index of the first smallest element of `[i, start + n)`. -/
def sel1Min (cmp : α → α → ℤ) (a : Arr α) (j : ℤ) (minLoc : ℤ) : Except Fault ℤ := do
  let c ← sortCmp cmp a j minLoc
  if c < 0 then pure j else pure minLoc

/-- Sort.hh:94-112 `__selectionSort1`. -/
def selectionSort1 (cmp : α → α → ℤ) (start n : ℤ) (a : Arr α) : Except Fault (Arr α) :=
  forUp (fun i a => do
    let dup ← (if i > start then do
        let c ← sortCmp cmp a i (i - 1)
        pure (decide (c = 0))
      else .ok false)
    if dup then pure a
    else do
      let minLoc ← forUp (fun j m => sel1Min cmp a j m) (start + n - (i + 1)).toNat (i + 1) i
      if minLoc > i then sortSwap a i minLoc else pure a) (n - 1).toNat start a

/-- Sort.hh:126-129: one step of the search for the smallest and the largest element. -/
def sel2Step (cmp : α → α → ℤ) (a : Arr α) (k : ℤ) (m : ℤ × ℤ) : Except Fault (ℤ × ℤ) := do
  let c ← sortCmp cmp a k m.1
  let c' ← sortCmp cmp a k m.2
  pure (if c < 0 then k else m.1, if c' > 0 then k else m.2)

/-- Sort.hh:131-139: the smallest element goes to the front, the largest to the back (`minLoc ≠ maxLoc`). -/
def sel2Place (a : Arr α) (i j minLoc maxLoc : ℤ) : Except Fault (Arr α) := do
  let (a, minLoc, maxLoc) ← (if minLoc > maxLoc then do
      let a' ← sortSwap a minLoc maxLoc
      pure (a', maxLoc, minLoc)
    else .ok (a, minLoc, maxLoc))
  let a ← (if minLoc > i then sortSwap a i minLoc else .ok a)
  if maxLoc < j then sortSwap a j maxLoc else .ok a

/-- Sort.hh:121-141, the loop of `__selectionSort2`. -/
def sel2Loop (cmp : α → α → ℤ) (start n : ℤ) : Nat → ℤ → ℤ → Arr α → Except Fault (Arr α)
  | 0, _, _, _ => .error .outOfFuel
  | f + 1, i, j, a =>
    if i < j then do
      let dupI ← (if i > start then do
          let c ← sortCmp cmp a i (i - 1)
          pure (decide (c = 0))
        else .ok false)
      if dupI then sel2Loop cmp start n f (i + 1) j a
      else do
        let dupJ ← (if j < start + n - 1 then do
            let c ← sortCmp cmp a j (j + 1)
            pure (decide (c = 0))
          else .ok false)
        if dupJ then sel2Loop cmp start n f i (j - 1) a
        else do
          let m ← forUp (sel2Step cmp a) (j - i).toNat (i + 1) (i, i)
          if m.1 = m.2 then pure a
          else do
            let a' ← sel2Place a i j m.1 m.2
            sel2Loop cmp start n f (i + 1) (j - 1) a'
    else .ok a

/-- Sort.hh:116-143 `__selectionSort2`. -/
def selectionSort2 (F : Nat) (cmp : α → α → ℤ) (start n : ℤ) (a : Arr α) : Except Fault (Arr α) :=
  sel2Loop cmp start n F start (start + n - 1) a

/-- Sort.hh:148-157 `__3median`. -/
def median3 (cmp : α → α → ℤ) (a : Arr α) (x y z : ℤ) : Except Fault ℤ := do
  let xy ← sortCmp cmp a x y
  if xy > 0 then do
    let yz ← sortCmp cmp a y z
    if yz > 0 then pure y
    else do
      let xz ← sortCmp cmp a x z
      pure (if xz > 0 then z else x)
  else do
    let yz ← sortCmp cmp a y z
    if yz < 0 then pure y
    else do
      let xz ← sortCmp cmp a x z
      pure (if xz < 0 then z else x)

/-- The local variables of the partition (Sort.hh:192-194). -/
structure Part (α : Type) where
  arr : Arr α
  pivot : ℤ
  left : ℤ
  right : ℤ

/-- `if (left != pivot+1) { sortSwap (cl, left, pivot+1); }` (Sort.hh:201 and 210). -/
def toEqual (a : Arr α) (left pivot : ℤ) : Except Fault (Arr α) :=
  if left ≠ pivot + 1 then sortSwap a left (pivot + 1) else .ok a

/-- Sort.hh:197-203, the first inner loop of the partition. -/
def scanLeft (cmp : α → α → ℤ) : Nat → Part α → Except Fault (Part α)
  | 0, _ => .error .outOfFuel
  | f + 1, s =>
    if s.left ≤ s.right then do
      let c ← sortCmp cmp s.arr s.left s.pivot
      if c > 0 then pure s
      else if c < 0 then scanLeft cmp f { s with left := s.left + 1 }
      else do
        let a ← toEqual s.arr s.left s.pivot
        scanLeft cmp f { s with arr := a, pivot := s.pivot + 1, left := s.left + 1 }
    else .ok s

/-- Sort.hh:204-213, the second inner loop; `true` means `goto restart`. -/
def scanRight (cmp : α → α → ℤ) : Nat → Part α → Except Fault (Bool × Part α)
  | 0, _ => .error .outOfFuel
  | f + 1, s =>
    if s.left ≤ s.right then do
      let c ← sortCmp cmp s.arr s.right s.pivot
      if c < 0 then pure (false, s)
      else if c > 0 then scanRight cmp f { s with right := s.right - 1 }
      else if s.left < s.right then do
        let a ← sortSwap s.arr s.left s.right
        let a ← toEqual a s.left s.pivot
        pure (true, ⟨a, s.pivot + 1, s.left + 1, s.right - 1⟩)
      else .error .assertion
    else .ok (false, s)

/-- Sort.hh:195-216, the outer loop of the partition. -/
def partLoop (F : Nat) (cmp : α → α → ℤ) : Nat → Part α → Except Fault (Part α)
  | 0, _ => .error .outOfFuel
  | f + 1, s => do
    let s ← scanLeft cmp F s
    let (restart, s) ← scanRight cmp F s
    if restart then partLoop F cmp f s
    else if s.left > s.right then pure s
    else do
      let a ← sortSwap s.arr s.left s.right
      partLoop F cmp f { s with arr := a }

/-- `assert (b)`. -/
def assert_ (b : Bool) : Except Fault Unit := if b then .ok () else .error .assertion

/-- Sort.hh:162-236 `__quickSort`: the last argument but three is the remaining recursion depth. -/
def quickSort (F : Nat) (cmp : α → α → ℤ) : Nat → ℤ → ℤ → Arr α → Except Fault (Arr α)
  | 0, _, _, _ => .error .outOfFuel
  | f + 1, start, n, a =>
    if n < 16 then insertionSort F cmp start n a
    else do
      let x := start + n / 4
      let y := start + n / 2
      let z := x + n / 2
      let pivotLoc ← median3 cmp a x y z
      let a ← sortSwap a start pivotLoc
      let s ← partLoop F cmp F ⟨a, start, start + 1, start + n - 1⟩
      assert_ (decide (s.pivot ≥ start))
      assert_ (decide (s.right ≥ s.pivot))
      assert_ (decide (s.left = s.right + 1))
      assert_ (decide (s.left ≤ start + n))
      let numEq := s.pivot - start + 1
      let numLt := s.right - s.pivot
      let numLe := s.left - start
      let numGt := n - numLe
      assert_ (decide (numEq + numLt + numGt = n))
      let count := if numEq < numLt then numEq else numLt
      let dist := numLe - count
      let a ← forUp (fun i a => sortSwap a (start + i) (start + i + dist)) count.toNat 0 s.arr
      let a ← (if numLt > 0 then quickSort F cmp f start numLt a else .ok a)
      if numGt > 0 then quickSort F cmp f s.left numGt a else .ok a

/-- Sort.hh:239-248 `sort`. -/
def sort (F : Nat) (cmp : α → α → ℤ) (a : Arr α) (n : ℤ) : Except Fault (Arr α) := do
  let a ← quickSort F cmp F 0 n a
  forUp (fun i (_ : Unit) => do
    let c ← sortCmp cmp a (i - 1) i
    assert_ (decide (c ≤ 0))) (n - 1).toNat 1 ()
  pure a

end EdgeEval.Sort
