"""Refresh the list of axioms in DESIGN.md from `#print axioms` for every theorem of MANIFEST.json (after `lake build`)."""
import json, os, re, subprocess, tempfile
root = os.path.dirname(os.path.dirname(os.path.abspath(__file__)))
names = []
for c in json.load(open(root + '/MANIFEST.json'))['claims']:
    for t in c['theorems']:
        if t not in names: names.append(t)
with tempfile.NamedTemporaryFile('w', suffix='.lean', delete=False) as f:
    f.write('import Verif\n' + ''.join('#print axioms %s\n' % t for t in names))
out = subprocess.run(['lake', 'env', 'lean', f.name], cwd=root + '/lean', capture_output=True, text=True).stdout
os.unlink(f.name)
groups = {}
for m in re.finditer(r"'(\S+)' (depends on axioms: \[([^\]]*)\]|does not depend on any axioms)", out):
    groups.setdefault(m.group(3) or 'none', []).append(m.group(1).replace('Id3.Props.', ''))
assert sum(map(len, groups.values())) == len(names), out
text = ''
for k in sorted(groups, key=len):
    text += '* **%s**: %s\n' % (k, ', '.join('`%s`' % n for n in groups[k]))
p = root + '/DESIGN.md'
s = open(p).read()
s = re.sub(r'(?s)(<!-- axioms:begin -->\n).*(<!-- axioms:end -->)', lambda m: m.group(1) + text + m.group(2), s)
open(p, 'w').write(s)
