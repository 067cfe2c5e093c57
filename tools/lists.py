#!/usr/bin/env python3
"""Write lean/Verif/Model/ListTables.lean from the tables in /repo/lists."""
import re

def lean(s):
    b = s.encode()
    parts, i = [], 0
    while i < len(b):
        j = i
        if b[i] < 128:
            while j < len(b) and b[j] < 128: j += 1
            parts.append('bs%"' + b[i:j].decode().replace('\\', '\\\\').replace('"', '\\"') + '"')
        else:
            while j < len(b) and b[j] >= 128: j += 1
            parts.append('[' + ', '.join(str(x) for x in b[i:j]) + ']')
        i = j
    return ' ++ '.join(parts) if parts else '[]'

def strings(s):
    return re.findall(r'"((?:[^"\\]|\\.)*)"', s)

def records(path):
    """(line, fields) for each record of a table"""
    text = open(path).read()
    out = []
    for m in re.finditer(r'\{\s*\n((?:[^{}]|\{[^{}]*\})*?)\n  \}', text):
        body = re.sub(r'//\s*NOLINT', '', m.group(1))
        l = re.search(r'\{([^{}]*)\}', body)
        langs = strings(l.group(1))
        before, after = strings(body[:l.start()]), strings(body[l.end():])
        if len(before) != 3 or len(after) != 3: raise Exception((path, before, after))
        first = text.count('\n', 0, m.start()) + 1
        last = text.count('\n', 0, m.end()) + 1
        out.append((first, last, before + [langs] + after))
    return out

def table(path, name):
    out = []
    names = []
    for k, (a, b, (uuid, url, title, langs, support, component, key)) in enumerate(records('/repo/' + path)):
        n = f'{name}{k}'
        names.append(n)
        out.append(f'/-- {path}:{a}-{b} -/\ndef {n} : FilterList where\n  uuid := {lean(uuid)}\n  url := {lean(url)}\n'
                   f'  title := {lean(title)}\n  langs := [{", ".join(lean(x) for x in langs)}]\n  supportUrl := {lean(support)}\n'
                   f'  componentId := {lean(component)}\n  base64PublicKey := {lean(key)}\n')
    return out, names

d = open('/repo/lists/default.h').read()
key = ''.join(strings(d[d.index('PublicKey ='):d.index('default_lists')]))
ids = strings(d[d.index('ComponentId'):d.index('PublicKey =')])[0]
def line(s): return d.count('\n', 0, d.index(s)) + 1
out = ['''import Verif.Model.Base
/-
The tables of lists (lists/default.h, lists/malware.h, lists/regions.h), written by tools/lists.py.
-/
namespace AdBlock

/-- filter_list.h:12-31 `FilterList` -/
structure FilterList where
  uuid : Bytes
  url : Bytes
  title : Bytes
  langs : List Bytes
  supportUrl : Bytes
  componentId : Bytes
  base64PublicKey : Bytes
deriving DecidableEq
''']
out.append(f'/-- lists/default.h:{line("const std::string kAdBlockDefaultComponentId")} `kAdBlockDefaultComponentId` -/\ndef defaultComponentId : Bytes := {lean(ids)}\n')
out.append(f'/-- lists/default.h:{line("const std::string kAdBlockDefaultBase64PublicKey")}-{line("const std::vector")-2} `kAdBlockDefaultBase64PublicKey` -/\ndef defaultBase64PublicKey : Bytes := {lean(key)}\n')
for path, name, lname in (('lists/default.h', 'defaultList', 'default_lists'), ('lists/regions.h', 'regionList', 'region_lists'), ('lists/malware.h', 'malwareList', 'malware_lists')):
    o, n = table(path, name)
    out += o
    t = open('/repo/' + path).read()
    i = t.index('const std::vector<FilterList> ' + lname)
    a = t.count('\n', 0, i) + 1
    b = t.count('\n', 0, t.index('\n};', i)) + 2
    rows = []
    for k in range(0, len(n), 8): rows.append(', '.join(n[k:k+8]))
    out.append(f'/-- {path}:{a}-{b} `{lname}` -/\ndef {name}s : List FilterList := [' + ',\n  '.join(rows) + ']\n')
out.append('end AdBlock\n')
open('/verif/lean/Verif/Model/ListTables.lean', 'w').write('\n'.join(out))
