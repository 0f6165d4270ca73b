import Verif.Model.Num
/-!
# Frozen dictionaries (dascore/utils/mapping.py)

Keys and values stand for what Python's `==` tells apart; objects that are equal have equal hashes. Hashes are 64 bits.
-/
namespace Verif

/-- A key: a string or something else. -/
inductive PyKey where
  | str (s : String) | other (n : ℕ)
  deriving DecidableEq, Repr

/-- `isinstance(key, str)`. -/
def PyKey.isStr : PyKey → Bool
  | .str _ => true
  | .other _ => false

variable {V : Type} [DecidableEq V]

/-- The items of a dictionary in order of insertion. -/
abbrev Items (V : Type) := List (PyKey × V)

/-- `d[k]` or nothing. -/
def Items.get? (d : Items V) (k : PyKey) : Option V := (d.find? fun p => p.1 == k).map Prod.snd

/-- `d[k] = v`. -/
def Items.set : Items V → PyKey → V → Items V
  | [], k, v => [(k, v)]
  | p :: d, k, v => if p.1 = k then (k, v) :: d else p :: Items.set d k v

/-- `d.update(e)`. -/
def Items.update (d e : Items V) : Items V := e.foldl (fun d p => d.set p.1 p.2) d

/-- mapping.py 18-34, `FrozenDict`. -/
structure Frozen (V : Type) where
  dict : Items V
  hash : Option (BitVec 64) := none
  deriving DecidableEq

/-- mapping.py 32-34, `FrozenDict(items)`; later items replace earlier ones with the same key. -/
def Frozen.make (items : Items V) : Frozen V := { dict := Items.update [] items }

/-- mapping.py 42-46, `new(**kwargs)`. The contents are passed on as keyword arguments, which have to be strings. -/
def Frozen.new (f : Frozen V) (kwargs : List (String × V)) : Except Err (Frozen V) :=
  let contents := f.dict.update (kwargs.map fun p => (.str p.1, p.2))
  if contents.all fun p => p.1.isStr then .ok (.make contents) else .error .typeError

/-- mapping.py 57-62, `_hash_contents`. `h` is `hash((key, value))`, nothing if it raises TypeError. -/
def hashContents (h : PyKey → V → Option (BitVec 64)) : Items V → Option (BitVec 64)
  | [] => some 0
  | p :: d =>
    match h p.1 p.2, hashContents h d with
    | some a, some b => some (a ^^^ b)
    | _, _ => none

/-- mapping.py 64-67, `__hash__`: the hash (or TypeError), and the object afterwards. -/
def Frozen.hashed (h : PyKey → V → Option (BitVec 64)) (f : Frozen V) : Except Err (BitVec 64) × Frozen V :=
  match f.hash with
  | some x => (.ok x, f)
  | none =>
    match hashContents h f.dict with
    | some x => (.ok x, { f with hash := some x })
    | none => (.error .typeError, f)

/-- `Mapping.__eq__`: `dict(self.items()) == dict(other.items())`, and equality of dictionaries. -/
def Frozen.eq (f g : Frozen V) : Bool :=
  decide (f.dict.length = g.dict.length) && f.dict.all fun p => decide (Items.get? g.dict p.1 = some p.2)

/-- Objects: dictionaries, which can be changed, and frozen ones. -/
structure FWorld (V : Type) where
  dicts : List (Items V) := []
  frozen : List (Frozen V) := []

/-- What can be done: make or change a dictionary, freeze one, take the hash of a frozen one, or make a new one from it. -/
inductive FOp (V : Type) where
  | dict (items : Items V)
  | setItem (i : ℕ) (k : PyKey) (v : V)
  | delItem (i : ℕ) (k : PyKey)
  | freeze (i : ℕ)
  | hash (j : ℕ)
  | new (j : ℕ) (kwargs : List (String × V))

/-- One step; `h` as in `hashContents`. -/
def FWorld.step (h : PyKey → V → Option (BitVec 64)) (w : FWorld V) : FOp V → FWorld V
  | .dict items => { w with dicts := w.dicts ++ [Items.update [] items] }
  | .setItem i k v => { w with dicts := w.dicts.modify i fun d => d.set k v }
  | .delItem i k => { w with dicts := w.dicts.modify i fun d => d.filter fun p => p.1 != k }
  | .freeze i =>
    match w.dicts[i]? with
    | some d => { w with frozen := w.frozen ++ [Frozen.make d] }
    | none => w
  | .hash j => { w with frozen := w.frozen.modify j fun f => (f.hashed h).2 }
  | .new j kwargs =>
    match w.frozen[j]? with
    | some f =>
      match f.new kwargs with
      | .ok g => { w with frozen := w.frozen ++ [g] }
      | .error _ => w
    | none => w

end Verif
