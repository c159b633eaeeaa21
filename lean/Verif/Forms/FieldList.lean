import Verif.Py.Dict
/-
Model of the parsing of field lists (eulxml/forms/xmlobject.py:44-83).
-/
namespace Forms
open Py

/-- xmlobject.py:78-83 `ParsedFieldList`. -/
inductive PFL where
  | mk (fields : List Str) (subfields : List (Str × PFL))

namespace PFL
/-- The attribute `fields`. -/
def fields : PFL → List Str | mk f _ => f
/-- The attribute `subfields` (a dictionary). -/
def subfields : PFL → Dict Str PFL | mk _ s => s
end PFL

/-- xmlobject.py:64-71: one turn of the loop over `field_parts_list`.  `subpart_lists` is a `defaultdict(list)`.  The list of parts comes from
`str.split`, so it is not empty; an empty one is skipped here. -/
def collectStep (inc : Bool) (st : List Str × Dict Str (List (List Str))) (parts : List Str) : List Str × Dict Str (List (List Str)) :=
  match parts with
  | [] => st
  | [field] => (st.1 ++ [field], st.2)
  | field :: s :: ss =>
    (if inc = true ∧ field ∉ st.1 then st.1 ++ [field] else st.1,
     st.2.set field ((st.2.get? field).getD [] ++ [s :: ss]))

/-- xmlobject.py:59-76 `_collect_fields`.  The first argument bounds the depth of the recursion. -/
def collectFields : Nat → Bool → List (List Str) → PFL
  | 0, _, _ => .mk [] []
  | n + 1, inc, partsList =>
    let r := partsList.foldl (collectStep inc) ([], [])
    .mk r.1 (r.2.map (fun p => (p.1, collectFields n inc p.2)))

/-- xmlobject.py:44-57 `_parse_field_list`.  The depth of the recursion is at most the length of the longest list of parts, which is at most that of the
longest name plus one. -/
def parseFieldList (names : List Str) (includeParents : Bool) : PFL :=
  let parts := names.map (·.splitOn '.')
  collectFields ((parts.map List.length).foldr max 0) includeParents parts

end Forms
