import Verif.Py.Dict
import Verif.XPath.Serialize
/-
Model of `xmlobject_to_dict` (eulxml/forms/xmlobject.py:317-354).
-/
namespace Forms
open Py XPath

/- An XmlObject, as its fields in the order of `_fields`: a field with a simple value (also list fields of simple values), an empty NodeField, a
NodeField with its object, a NodeListField with its objects. -/
mutual
inductive Obj (V : Type) where
  | nil
  | scalar (name : Str) (v : V) (rest : Obj V)
  | absent (name : Str) (rest : Obj V)
  | node (name : Str) (sub : Obj V) (rest : Obj V)
  | list (name : Str) (items : Objs V) (rest : Obj V)
inductive Objs (V : Type) where
  | nil
  | cons (item : Obj V) (rest : Objs V)
end

/-- A value in the dictionary: a simple value, `None`, or an object. -/
inductive Stored (V : Type) where
  | scalar (v : V)
  | none
  | obj (o : Obj V)

/-- xmlobject.py:329-332: the prefix in combining form. -/
def combining (pre : Str) : Str := if pre = [] then [] else pre ++ ['-']

mutual
/-- xmlobject.py:334-352: the loop over the fields; `pre` is the prefix in combining form, `data` the dictionary so far.  The dictionary of a
sub-object is made from an empty one, by the same function without field lists. -/
def dictLoop {V : Type} (o : Obj V) (pre : Str) (data : Dict Str (Stored V)) : Dict Str (Stored V) := match o with
  | .nil => data
  | .scalar name v rest => dictLoop rest pre (data.set (pre ++ name) (.scalar v))
  | .absent name rest => dictLoop rest pre (data.set (pre ++ name) .none)
  | .node name sub rest =>
    dictLoop rest pre ((data.update (dictLoop sub (combining (pre ++ name)) [])).set (pre ++ name) (.obj sub))
  | .list name items rest => dictLoop rest pre (itemsLoop items (pre ++ name) 0 data)
/-- xmlobject.py:347-350: the loop over the objects of a list. -/
def itemsLoop {V : Type} (l : Objs V) (pre : Str) (i : Nat) (data : Dict Str (Stored V)) : Dict Str (Stored V) := match l with
  | .nil => data
  | .cons item rest => itemsLoop rest pre (i + 1) (data.update (dictLoop item (combining (pre ++ '-' :: natStr i)) []))
end

/-- xmlobject.py:336-339: the fields let through by the arguments `fields` and `exclude` (an empty list counts as none). -/
def filterTop {V : Type} (fields exclude : List Str) : Obj V → Obj V
  | .nil => .nil
  | .scalar n v r => if keep n then .scalar n v (filterTop fields exclude r) else filterTop fields exclude r
  | .absent n r => if keep n then .absent n (filterTop fields exclude r) else filterTop fields exclude r
  | .node n s r => if keep n then .node n s (filterTop fields exclude r) else filterTop fields exclude r
  | .list n s r => if keep n then .list n s (filterTop fields exclude r) else filterTop fields exclude r
where
  /-- Not skipped. -/
  keep (n : Str) : Bool := (fields = [] || n ∈ fields) && !(exclude ≠ [] && n ∈ exclude)

/-- xmlobject.py:317-354 `xmlobject_to_dict`. -/
def xmlobjectToDict {V : Type} (o : Obj V) (fields exclude : List Str) (pre : Str) : Dict Str (Stored V) :=
  dictLoop (filterTop fields exclude o) (combining pre) []

end Forms
