abbrev R := Float
notation "ℝ" => R
notation "ℕ" => Nat
notation "ℤ" => Int
instance : Zero Float := ⟨0⟩
instance : NatCast Float := ⟨Float.ofNat⟩
macro:max atomic("|" noWs) a:term noWs "|" : term => `(Float.abs $a)
namespace Real
def sqrt := Float.sqrt
def sin := Float.sin
def cos := Float.cos
def tan := Float.tan
def arccos := Float.acos
def arctan := Float.atan
def exp := Float.exp
def pi : Float := 3.141592653589793
end Real
class FT (ι : Type) where els : List ι
instance (n : Nat) : FT (Fin n) := ⟨List.ofFn id⟩
def sumR (n : Nat) (f : Nat → Float) : Float := (List.range n).foldl (fun s k => s + f k) 0
def sumT {ι : Type} [FT ι] (f : ι → Float) : Float := (FT.els (ι := ι)).foldl (fun s k => s + f k) 0
syntax:67 "∑ " ident " ∈ " "Finset.range " term:max ", " term:67 : term
syntax:67 "∑ " ident ", " term:67 : term
macro_rules
  | `(∑ $k:ident ∈ Finset.range $n, $e) => `(sumR $n fun $k => $e)
  | `(∑ $k:ident, $e) => `(sumT fun $k => $e)
def Function.update {α β : Type} [DecidableEq α] (f : α → β) (a : α) (b : β) : α → β :=
  fun x => if x = a then b else f x
def Matrix (a b : Type) (r : Type) := a → b → r
namespace Matrix
def diagonal {n : Nat} (v : Fin n → Float) : Matrix (Fin n) (Fin n) Float := fun i j => if i = j then v i else 0
@[noinline] def mulVecA {n : Nat} (m : Matrix (Fin n) (Fin n) Float) (v : Fin n → Float) : Array Float :=
  let vv : Array Float := Array.ofFn v
  Array.ofFn fun i => sumT fun j : Fin n => m i j * vv[j.val]!
@[noinline] def look {n : Nat} (a : Array Float) (i : Fin n) : Float := a[i.val]!
@[noinline] def pr {n : Nat} (a : Array Float) : (Fin n → Float) × Unit := (look a, ())
@[inline] def mulVec {n : Nat} (m : Matrix (Fin n) (Fin n) Float) (v : Fin n → Float) : Fin n → Float := (pr (mulVecA m v)).1
instance {n : Nat} : Sub (Matrix (Fin n) (Fin n) Float) :=
  ⟨fun a b i j => a i j - b i j⟩
/-- solve by Gauss-Jordan -/
@[noinline] def invA {n : Nat} (m : Matrix (Fin n) (Fin n) Float) : Array (Array Float) := Id.run do
  let mut a : Array (Array Float) := Array.ofFn fun i => (Array.ofFn fun j => m i j) ++ (Array.ofFn fun j : Fin n => if i = j then 1.0 else 0.0)
  for c in [0:n] do
    let mut p := c
    for r in [c:n] do
      if Float.abs a[r]![c]! > Float.abs a[p]![c]! then p := r
    let rp := a[p]!
    let rc := a[c]!
    a := (a.set! p rc).set! c (rp.map (· / rp[c]!))
    let pr := a[c]!
    for r in [0:n] do
      if r != c then
        let f := a[r]![c]!
        if f != 0 then
          let row := a[r]!
          a := a.set! r (Array.ofFn fun k : Fin (2*n) => row[k.val]! - f * pr[k.val]!)
  return a
@[noinline] def look2 {n : Nat} (b : Array (Array Float)) (i j : Fin n) : Float := b[i.val]![n + j.val]!
@[noinline] def pr2 {n : Nat} (a : Array (Array Float)) : (Fin n → Fin n → Float) × Unit := (look2 a, ())
@[inline] def inv {n : Nat} (m : Matrix (Fin n) (Fin n) Float) : Matrix (Fin n) (Fin n) Float := (pr2 (invA m)).1
end Matrix
