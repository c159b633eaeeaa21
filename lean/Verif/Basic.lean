/-
Common definitions: character lists and the exceptions raised by the modelled Python code.
-/

/-- A Python (unicode) string is modelled as the list of its characters. -/
abbrev Str := List Char

open Lean in
/-- `c%"abc"` is the character list `['a', 'b', 'c']` (kept as a literal list so that the kernel can
compute with it). -/
macro:max "c%" s:str : term => do
  let mut t ← `(([] : Str))
  for c in s.getString.toList.reverse do
    t ← `(List.cons $(Syntax.mkCharLit c) $t)
  return t

/-- The kinds of Python exceptions that the modelled functions raise. -/
inductive PyErr where
  | typeError | runtimeError | valueError | indexError | keyError | attributeError
  | assertionError | xpathError | ioError | overflowError | nameError
  | exception            -- a bare `Exception(...)`
  deriving DecidableEq, Repr

deriving instance DecidableEq for Except
