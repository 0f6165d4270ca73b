import Verif.Model.Arith
import Verif.Model.Units
/-!
# Arithmetic and units (dascore/utils/array.py 47-198, 400-470, dascore/utils/patch.py 1109-1133, core/patch.py 194-257)

What the package pint does with two quantities is modelled from its documentation: magnitudes of sums, differences and comparisons are
converted to the units of the first quantity, those of products and quotients are not converted. Units with an offset (temperatures) are
outside the model of arithmetic (an error value), as are floor division, remainders and powers with quantities. Printing of
units and parsing the result again (array.py 164) gives the same unit; that of a plain number is printed as nothing. Numbers are
rational and arithmetic is exact, division by zero is that of Lean.
-/
namespace Verif

/-- core/patch.py 194-207, 234-246: the operators of arithmetic. -/
inductive ArithOp where
  | add | sub | mul | div
  deriving DecidableEq, Repr

/-- `np.add`, `np.subtract`, `np.multiply` and `np.divide` of two numbers. -/
def ArithOp.run : ArithOp → ℚ → ℚ → ℚ
  | .add, a, b => a + b
  | .sub, a, b => a - b
  | .mul, a, b => a * b
  | .div, a, b => a / b

/-- core/patch.py 215-225: the comparisons. -/
inductive CompOp where
  | gt | ge | lt | le
  deriving DecidableEq, Repr

/-- `np.greater`, `np.greater_equal`, `np.less` and `np.less_equal` of two numbers. -/
def CompOp.run : CompOp → ℚ → ℚ → Bool
  | .gt, a, b => decide (a > b)
  | .ge, a, b => decide (a ≥ b)
  | .lt, a, b => decide (a < b)
  | .le, a, b => decide (a ≤ b)

/-- The product of two pint units. -/
def PintUnit.times (u v : PintUnit ℚ) : PintUnit ℚ := ⟨u.name ++ "*" ++ v.name, List.zipWith (· + ·) u.dim v.dim, u.scale * v.scale, 0⟩

/-- The quotient of two pint units. -/
def PintUnit.per (u v : PintUnit ℚ) : PintUnit ℚ := ⟨u.name ++ "/" ++ v.name, List.zipWith (· - ·) u.dim v.dim, u.scale / v.scale, 0⟩

/-- pint `Quantity.dimensionless`. -/
def PintUnit.dimensionless (u : PintUnit ℚ) : Bool := u.dim.all (· == 0)

/-- What pint computes from two numbers: the operation on the magnitudes and the units of the result. -/
abbrev PintRule := (ℚ → ℚ → ℚ) × Option (PintUnit ℚ)

/-- pint: the sum or difference of an array without units and one with units. `zeros` says that the former has only zeros. `swap` says that
the array with units is the first operand. -/
def pintSumBare (op : ArithOp) (v : PintUnit ℚ) (zeros swap : Bool) : Except Err PintRule :=
  if zeros then .ok (op.run, some v)
  else if v.dimensionless then
    .ok (if swap then fun b a => op.run (b * v.scale) a else fun a b => op.run a (b * v.scale), some PintUnit.plain)
  else .error .unitError

/-- pint: sums and differences. -/
def pintSum (op : ArithOp) (zeros : Bool) : Option (PintUnit ℚ) → Option (PintUnit ℚ) → Except Err PintRule
  | none, none => .ok (op.run, none)
  | none, some v => pintSumBare op v zeros false
  | some u, none => pintSumBare op u zeros true
  | some u, some v =>
    if u.dim = v.dim then .ok (fun a b => op.run a (b * v.scale / u.scale), some u) else .error .unitError

/-- pint: the units of products. -/
def pintProduct : Option (PintUnit ℚ) → Option (PintUnit ℚ) → Option (PintUnit ℚ)
  | none, v => v
  | some u, none => some u
  | some u, some v => some (u.times v)

/-- pint: the units of quotients. -/
def pintQuotient : Option (PintUnit ℚ) → Option (PintUnit ℚ) → Option (PintUnit ℚ)
  | u, none => u
  | none, some v => some (PintUnit.plain.per v)
  | some u, some v => some (u.per v)

/-- pint: whether arithmetic with this unit is outside the model. -/
def shiftedUnit (u : Option (PintUnit ℚ)) : Bool := u.any fun x => decide (x.offset ≠ 0)

/-- pint: arithmetic with two arrays, each with units or without. -/
def pintArith (op : ArithOp) (zeros : Bool) (u v : Option (PintUnit ℚ)) : Except Err PintRule :=
  if shiftedUnit u || shiftedUnit v then .error .notImplemented
  else
    match op with
    | .add => pintSum .add zeros u v
    | .sub => pintSum .sub zeros u v
    | .mul => .ok (ArithOp.mul.run, pintProduct u v)
    | .div => .ok (ArithOp.div.run, pintQuotient u v)

/-- pint: comparison of magnitudes. The operand without units may have only zeros or belong to units of a plain number. -/
def pintCompare (op : CompOp) (zeros : Bool) (u v : Option (PintUnit ℚ)) : Except Err (ℚ → ℚ → Bool) :=
  if shiftedUnit u || shiftedUnit v then .error .notImplemented
  else
    match u, v with
    | none, none => .ok op.run
    | none, some v => if v.dimensionless then .ok fun a b => op.run (a / v.scale) b else if zeros then .ok op.run else .error .unitError
    | some u, none => if u.dimensionless then .ok fun a b => op.run a (b / u.scale) else if zeros then .ok op.run else .error .unitError
    | some u, some v => if u.dim = v.dim then .ok fun a b => op.run a (b * v.scale / u.scale) else .error .unitError

/-- array.py 164, 47-52: the attribute for the units of a result. -/
def unitAttr (u : Option (PintUnit ℚ)) : Option (Quant ℚ) :=
  match u with
  | none => none
  | some u => if u.dimensionless && decide (u.scale = 1) then none else some ⟨1, u⟩

/-- A patch whose samples are numbers, with the units of its data and the other attributes that are compared. -/
structure MPatch where
  patch : PatchM ℚ
  units : Option (Quant ℚ)
  attrs : Dict String

/-- A result of a comparison. -/
structure BPatch where
  patch : PatchM Bool
  units : Option (Quant ℚ)
  attrs : Dict String

/-- The number in front of the unit, one if there are no units: `data * data_units` has magnitudes multiplied with it. -/
def factorOf (u : Option (Quant ℚ)) : ℚ := (u.map Quant.mag).getD 1

/-- utils/patch.py 1125 for the units of the data. pint compares amounts. -/
def unitsEqual : Option (Quant ℚ) → Option (Quant ℚ) → Bool
  | none, none => true
  | some a, some b => a.sameKey b
  | _, _ => false

/-- utils/patch.py 1109-1133, `_merge_models`: attributes both have must be equal, those of the first patch are kept. History and
dimensions, which are ignored, are not listed here; coordinates are removed from the attributes (1119). -/
def mergeModels (p q : Option (Quant ℚ) × Dict String) : Except Err (Option (Quant ℚ) × Dict String) :=
  if unitsEqual p.1 q.1 && p.2.all (fun a => (q.2.get? a.1).all (· == a.2)) then
    .ok (p.1, p.2 ++ q.2.filter fun a => (p.2.get? a.1).isNone)
  else .error .incompatiblePatch

/-- Whether all samples are zero (pint `zero_or_nan(x, True)`; there is no NaN here). -/
def Nd.allZero (a : Nd ℚ) : Bool := (Nd.indices a.shape).all fun i => a.get i == 0

/-- array.py 191-194 for two patches: what is computed from two samples, and the units of the result. -/
def arithRule (op : ArithOp) (zeros : Bool) (attrs u v : Option (Quant ℚ)) : Except Err ((ℚ → ℚ → ℚ) × Option (Quant ℚ)) :=
  match v with
  | none => .ok (op.run, attrs)
  | some v => (pintArith op zeros (u.map Quant.unit) (some v.unit)).map fun r => (fun a b => r.1 (a * factorOf u) (b * v.mag), unitAttr r.2)

/-- array.py 79-198, `_apply_binary_ufunc` of two patches, with units. The first patch has the units of the merged attributes (149). -/
def MPatch.arith (argsort : List ℚ → List ℕ) (op : ArithOp) (p q : MPatch) : Except Err MPatch := do
  let r ← alignPatches argsort p.patch q.patch
  let cm ← mergeAligned r.1.cm r.2.cm
  let attrs ← mergeModels (p.units, p.attrs) (q.units, q.attrs)
  let f ← arithRule op r.1.data.allZero attrs.1 attrs.1 q.units
  let a ← Nd.zipWith f.1 r.1.data r.2.data
  let out ← PatchM.new cm a
  return ⟨out, f.2, attrs.2⟩

/-- The same for comparisons. Results without units lose those of the data (array.py 166-170, 47-52). -/
def compareRule (op : CompOp) (zeros : Bool) (u v : Option (Quant ℚ)) : Except Err (ℚ → ℚ → Bool) :=
  match v with
  | none => .ok op.run
  | some v => (pintCompare op zeros (u.map Quant.unit) (some v.unit)).map fun f => fun a b => f (a * factorOf u) (b * v.mag)

/-- array.py 79-198 for comparisons of two patches. -/
def MPatch.compare (argsort : List ℚ → List ℕ) (op : CompOp) (p q : MPatch) : Except Err BPatch := do
  let r ← alignPatches argsort p.patch q.patch
  let cm ← mergeAligned r.1.cm r.2.cm
  let attrs ← mergeModels (p.units, p.attrs) (q.units, q.attrs)
  let f ← compareRule op r.1.data.allZero attrs.1 q.units
  let a ← Nd.zipWith f r.1.data r.2.data
  let out ← PatchM.new cm a
  return ⟨out, none, attrs.2⟩

/-- array.py 148-171, `_apply_op_units`, for a quantity with the units `v`; `swap` says that the quantity is the first operand. The
arguments of the function are the sample and the number of the quantity. -/
def quantityRule (op : ArithOp) (swap zeros : Bool) (u : Option (Quant ℚ)) (v : PintUnit ℚ) : Except Err ((ℚ → ℚ → ℚ) × Option (Quant ℚ)) :=
  if swap then (pintArith op zeros (some v) (u.map Quant.unit)).map fun r => (fun a b => r.1 b (a * factorOf u), unitAttr r.2)
  else (pintArith op zeros (u.map Quant.unit) (some v)).map fun r => (fun a b => r.1 (a * factorOf u) b, unitAttr r.2)

/-- array.py 79-198 for a patch and a quantity (with one number, or an array of numbers). -/
def MPatch.withQuantity (op : ArithOp) (swap : Bool) (p : MPatch) (a : Nd ℚ) (v : PintUnit ℚ) : Except Err MPatch := do
  let q ← p.patch.fitTo a.shape
  let f ← quantityRule op swap q.data.allZero p.units v
  let out ← p.patch.withArray f.1 a
  return ⟨out, f.2, p.attrs⟩

/-- array.py 148-171 for comparisons. -/
def quantityCompare (op : CompOp) (swap zeros : Bool) (u : Option (Quant ℚ)) (v : PintUnit ℚ) : Except Err (ℚ → ℚ → Bool) :=
  if swap then (pintCompare op zeros (some v) (u.map Quant.unit)).map fun f => fun a b => f b (a * factorOf u)
  else (pintCompare op zeros (u.map Quant.unit) (some v)).map fun f => fun a b => f (a * factorOf u) b

/-- array.py 79-198 for comparisons with a quantity. -/
def MPatch.compareQuantity (op : CompOp) (swap : Bool) (p : MPatch) (a : Nd ℚ) (v : PintUnit ℚ) : Except Err BPatch := do
  let q ← p.patch.fitTo a.shape
  let f ← quantityCompare op swap q.data.allZero p.units v
  let out ← p.patch.withArray f a
  return ⟨out, none, p.attrs⟩

/-- array.py 79-198 for a patch and numbers without units (194-195): any function of two numbers, the units of the data are kept. -/
def MPatch.withNumbers (f : ℚ → ℚ → ℚ) (p : MPatch) (a : Nd ℚ) : Except Err MPatch := do
  let out ← p.patch.withArray f a
  return ⟨out, p.units, p.attrs⟩

/-- array.py 55-76, `_apply_unary_ufunc`, any function of one number. -/
def MPatch.unary (f : ℚ → ℚ) (p : MPatch) : Except Err MPatch := do
  let out ← PatchM.new p.patch.cm ⟨p.patch.data.shape, fun i => f (p.patch.data.get i)⟩
  return ⟨out, p.units, p.attrs⟩

/-- The same for functions whose result is true or false (array.py 47-52). -/
def MPatch.unaryBool (f : ℚ → Bool) (p : MPatch) : Except Err BPatch := do
  let out ← PatchM.new p.patch.cm ⟨p.patch.data.shape, fun i => f (p.patch.data.get i)⟩
  return ⟨out, none, p.attrs⟩

end Verif
