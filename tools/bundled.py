#!/usr/bin/env python3
"""Generate lean/Verif/Domain/Bundled.lean: the single-value fields of the bundled XmlObject classes, read off the Python sources (as text)."""
import ast, os
root = os.path.dirname(os.path.dirname(os.path.abspath(__file__)))
MODS = ['dc', 'premis', 'mods', 'cerp', 'eadmap', 'teimap']
NS = {
 'dc': ('dc.py:31', [('oai_dc', 'http://www.openarchives.org/OAI/2.0/oai_dc/'), ('dc', 'http://purl.org/dc/elements/1.1/')]),
 'premis': ('premis.py:45-48', [('p', 'info:lc/xmlns/premis-v2'), ('xsi', 'http://www.w3.org/2001/XMLSchema-instance')]),
 'mods': ('mods.py:28-39', [('mods', 'http://www.loc.gov/mods/v3')]),
 'cerp': ('cerp.py:38-42', [('xm', 'http://www.archives.ncdcr.gov/mail-account')]),
 'eadmap': ('eadmap.py:35-39', [('e', 'urn:isbn:1-931666-22-9'), ('xlink', 'http://www.w3.org/1999/xlink'), ('exist', 'http://exist.sourceforge.net/NS/exist')]),
 'teimap': ('teimap.py:28-31', [('tei', 'http://www.tei-c.org/ns/1.0'), ('xml', 'http://www.w3.org/XML/1998/namespace')]),
}
# fields whose XPath is not a chain of child steps and attributes (they are read-only or need other treatment)
def special(xp): return xp in ('.', 'local-name(.)') or xp.startswith(('count(', './')) or '[1]' in xp
def esc(s): return s.replace('\\', '\\\\').replace('"', '\\"')
def lit(s): return 'c%"' + esc(s) + '"'
records, leaves, skipped = [], [], []
lists, skippedLists = [], []
for m in MODS:
    t = ast.parse(open('/repo/eulxml/xmlmap/%s.py' % m).read())
    classes = {}
    for c in t.body:
        if not isinstance(c, ast.ClassDef): continue
        fs = {}
        for b in c.body:
            if isinstance(b, ast.Assign) and isinstance(b.value, ast.Call):
                f = b.value.func
                fn = f.attr if isinstance(f, ast.Attribute) else getattr(f, 'id', '')
                if fn.endswith('Field'):
                    a = [ast.literal_eval(x) if isinstance(x, ast.Constant) else None for x in b.value.args]
                    kw = {k.arg: (k.value.value if isinstance(k.value, ast.Constant) else None) for k in b.value.keywords}
                    fs[b.targets[0].id] = (fn, a, kw, b.lineno)
        bases = tuple(classes[x.id] for x in c.bases if isinstance(x, ast.Name) and x.id in classes)
        classes[c.name] = type(c.name, bases or (object,), {'fs': fs, 'line': c.lineno})
    for name, k in classes.items():
        all_ = {}
        for b in reversed(k.__mro__):
            if hasattr(b, 'fs') and 'fs' in b.__dict__:
                for n, f in b.fs.items():
                    all_.pop(n, None); all_[n] = f
        out, lines = [], []
        for n, (fn, a, kw, line) in all_.items():
            if fn in ('NodeField', 'NodeListField', 'StringListField', 'ItemField'): continue
            xp = a[0]
            if special(xp):
                if n == 'match_count' and name != '_EadBase': continue
                skipped.append('%s.%s.%s (`%s`, line %d)%s' % (m, name, n, xp, line, ', inherited by all classes of eadmap' if n == 'match_count' else '')); continue
            if fn in ('StringField', 'SchemaField'): kind = '.str true' if kw.get('normalize') else '.str false'
            elif fn == 'IntegerField': kind = '.int'
            elif fn == 'SimpleBooleanField':
                tr = kw.get('true', a[1] if len(a) > 1 else None); fa = kw.get('false', a[2] if len(a) > 2 else None)
                if not isinstance(tr, str): tr = str(tr)
                fal = 'none' if fa is None else '(some %s)' % lit(str(fa))
                kind = '.bool %s %s' % (lit(tr), fal)
            else: raise Exception(fn)
            out.append((n, kind, xp)); lines.append(line)
        lout, llines = [], []
        for n, (fn, a, kw, line) in all_.items():
            if fn not in ('NodeListField', 'StringListField'): continue
            xp = a[0]
            if '/' in xp or '|' in xp or '*' in xp:
                skippedLists.append('%s.%s.%s (`%s`, line %d)' % (m, name, n, xp, line)); continue
            lout.append((n, '.node' if fn == 'NodeListField' else '.str', xp)); llines.append(line)
            assert not kw.get('normalize')
        isleaf = any(x[2] == 'text()' for x in out)
        if lout and not isleaf: lists.append((m, name, k.line, min(llines), max(llines), lout, bool(out)))
        if not out: continue
        (leaves if any(x[2] == 'text()' for x in out) else records).append((m, name, k.line, min(lines), max(lines), out))
o = '''import Verif.XmlMap.Fields
/-
The classes that come with eulxml (eulxml/xmlmap/{dc,premis,mods,cerp,eadmap,teimap}.py): the prefixes that they always declare, and their single-value
fields of text, number and truth-value types with inherited fields included.  Written by tools/bundled.py from the Python sources.

Left out: fields for nodes and lists, and the following fields, whose XPath is not a chain of child steps and attributes:
''' + ''.join('  %s\n' % s for s in skipped) + '''-/
namespace Bundled
open Xml

/-- The type of a field: `StringField` (and `SchemaField`) with `normalize`, `IntegerField`, `SimpleBooleanField` with the texts for true and false. -/
inductive Kind where
  | str (normalize : Bool)
  | int
  | bool (t : Str) (f : Option Str)

/-- A field of a class. -/
structure FieldDecl where
  name : Str
  kind : Kind
  xpath : Str

/-- A class: module and name, `ROOT_NAMESPACES`, fields. -/
structure ClassDecl where
  name : Str
  namespaces : List (Str × Str)
  fields : List FieldDecl

'''
for m in MODS:
    o += '/-- %s -/\ndef %sNs : List (Str × Str) := [%s]\n' % (NS[m][0], m, ', '.join('(%s, %s)' % (lit(a), lit(b)) for a, b in NS[m][1]))
def emit(var, doc, l):
    global o
    ids = []
    for (m, name, line, lo, hi, fs) in l:
        i = '%s_%s' % (m, name.lstrip('_')); ids.append(i)
        o += '\n/-- %s.py:%d, fields at lines %s -/\ndef %s : ClassDecl := ⟨%s, %sNs, [\n' % (m, line, lo if lo == hi else '%d-%d' % (lo, hi), i, lit('%s.%s' % (m, name)), m)
        o += ',\n'.join('  ⟨%s, %s, %s⟩' % (lit(a), b, lit(c)) for a, b, c in fs) + ']⟩\n'
    o += '\n/-- %s -/\ndef %s : List ClassDecl := [\n  %s]\n' % (doc, var, ',\n  '.join(', '.join(ids[i:i + 6]) for i in range(0, len(ids), 6)))
emit('records', 'The classes whose fields are child elements and attributes.', records)
emit('leaves', 'The classes for elements with text: fields `text()` and attributes.', leaves)
o += '\nend Bundled\n'
open(root + '/lean/Verif/Domain/Bundled.lean', 'w').write(o)
o = '''import Verif.Domain.Bundled
/-
The list fields of the classes that come with eulxml (eulxml/xmlmap/{dc,premis,mods,cerp,eadmap,teimap}.py), inherited ones included, together with the
single-value fields of Verif/Domain/Bundled.lean.  Written by tools/bundled.py from the Python sources.

Left out: the following list fields, whose XPath is not one step with a name:
''' + ''.join('  %s\n' % s for s in skippedLists) + '''-/
namespace Bundled
open Xml

/-- `StringListField` or `NodeListField`. -/
inductive LKind where
  | str
  | node

/-- A list field of a class. -/
structure ListDecl where
  name : Str
  kind : LKind
  xpath : Str

/-- A class with its single-value fields and its list fields. -/
structure ListClass where
  cls : ClassDecl
  lists : List ListDecl
'''
ids = []
for (m, name, line, lo, hi, fs, has) in lists:
    i = '%s_%s' % (m, name.lstrip('_')); ids.append(i + '_l')
    cls = i if has else '⟨%s, %sNs, []⟩' % (lit('%s.%s' % (m, name)), m)
    o += '\n/-- %s.py:%d, list fields at lines %s -/\ndef %s_l : ListClass := ⟨%s, [\n' % (m, line, lo if lo == hi else '%d-%d' % (lo, hi), i, cls)
    o += ',\n'.join('  ⟨%s, %s, %s⟩' % (lit(a), b, lit(c)) for a, b, c in fs) + ']⟩\n'
o += '\n/-- The classes with list fields. -/\ndef listClasses : List ListClass := [\n  %s]\n' % ',\n  '.join(', '.join(ids[i:i + 6]) for i in range(0, len(ids), 6))
o += '\nend Bundled\n'
open(root + '/lean/Verif/Domain/BundledLists.lean', 'w').write(o)
print(len(lists), sum(len(x[5]) for x in lists))
print(len(records), len(leaves), sum(len(x[5]) for x in records), sum(len(x[5]) for x in leaves))
