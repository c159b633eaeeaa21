import Verif.Basic
/-
Model of `DublinCore.dcmi_types_graph` and `DublinCore.dcmi_types` (eulxml/xmlmap/dc.py:113-144) with rdflib installed.
rdflib's graphs are lists of triples in the order in which the store gives them, without repetitions; `Graph.label` is a parameter.
-/
namespace Domain.Dcmi

/-- An RDF triple; terms are strings. -/
abbrev Triple := Str × Str × Str
abbrev Graph := List Triple

def rdfType : Str := c%"http://www.w3.org/1999/02/22-rdf-syntax-ns#type"
def rdfsClass : Str := c%"http://www.w3.org/2000/01/rdf-schema#Class"
def isDefinedBy : Str := c%"http://www.w3.org/2000/01/rdf-schema#isDefinedBy"
/-- dc.py:115-117 -/
def typeUri : Str := c%"http://purl.org/dc/dcmitype/"

/-- One download and parse of `DCMI_TYPES_RDF`: the graph, or an exception after some triples were added. -/
inductive Fetch where
  | ok (g : Graph)
  | fails (got : Graph)
  deriving DecidableEq

/-- The attributes `_dcmi_types_graph` and `_dcmi_types` of an object (`None` from the class at first), and the number of downloads so far. -/
structure St where
  graph : Option Graph := none
  types : Option (List Str) := none
  loads : Nat := 0

/-- What comes back: a value or the exception of the download or of `label`. -/
inductive Err where
  | download
  | label
  deriving DecidableEq

section
variable (fetch : Nat → Fetch) (label : Graph → Str → Option Str)

/-- dc.py:120-127: the graph is stored before it is filled. `fetch k` is what the k-th download gives. -/
def typesGraph (st : St) : Except Err Graph × St :=
  match st.graph with
  | some g => (.ok g, st)
  | none => match fetch st.loads with
    | .ok g => (.ok g, { st with graph := some g, loads := st.loads + 1 })
    | .fails g => (.error .download, { st with graph := some g, loads := st.loads + 1 })

/-- dc.py:138: `graph.subjects(RDF.type, RDFS.Class)`. -/
def classItems (g : Graph) : List Str := (g.filter (fun t => t.2.1 = rdfType ∧ t.2.2 = rdfsClass)).map (·.1)

/-- dc.py:139-143: the loop; an exception of `label` leaves the list as far as it got. -/
def collect (g : Graph) : List Str → List Str → Except Err Unit × List Str
  | [], acc => (.ok (), acc)
  | x :: xs, acc =>
    if (x, isDefinedBy, typeUri) ∈ g then match label g x with
      | none => (.error .label, acc)
      | some l => collect g xs (acc ++ [l])
    else collect g xs acc

/-- dc.py:130-144: the list is stored before it is filled. -/
def dcmiTypes (st : St) : Except Err (List Str) × St :=
  match st.types with
  | some l => (.ok l, st)
  | none =>
    match typesGraph fetch { st with types := some [] } with
    | (.error e, st') => (.error e, st')
    | (.ok g, st') => match collect label g (classItems g) [] with
      | (.error e, l) => (.error e, { st' with types := some l })
      | (.ok (), l) => (.ok l, { st' with types := some l })

/-- What a user does with an object. -/
inductive Access where
  | graph
  | types
  deriving DecidableEq

/-- What an access gives. -/
inductive Got where
  | graph (g : Graph)
  | types (l : List Str)
  | raised (e : Err)
  deriving DecidableEq

def access (st : St) : Access → Got × St
  | .graph => match typesGraph fetch st with
    | (.ok g, st') => (.graph g, st')
    | (.error e, st') => (.raised e, st')
  | .types => match dcmiTypes fetch label st with
    | (.ok l, st') => (.types l, st')
    | (.error e, st') => (.raised e, st')

/-- A history of accesses to one object. -/
def accesses : St → List Access → List Got × St
  | st, [] => ([], st)
  | st, a :: as => ((access fetch label st a).1 :: (accesses (access fetch label st a).2 as).1, (accesses (access fetch label st a).2 as).2)

end
end Domain.Dcmi
