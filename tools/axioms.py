"""Write AXIOMS.txt: the axioms of each theorem in the manifest (run in /verif after `lake build`)."""
import json
import re
import subprocess

claims = json.load(open('MANIFEST.json'))['claims']
names = sorted({t for c in claims for t in c['theorems']})
with open('/tmp/Axioms.lean', 'w') as f:
    f.write('import Verif\n' + '\n'.join('#print axioms ' + n for n in names) + '\n')
out = subprocess.run(['lake', 'env', 'lean', '/tmp/Axioms.lean'], cwd='lean', capture_output=True, text=True)
text = re.sub(r'\n\s+', ' ', out.stdout)
lines = re.findall(r"'(\S+)' (?:depends on axioms: (\[.*?\])|(does not depend on any axioms))", text)
assert len(lines) == len(names), out.stdout[-2000:] + out.stderr
with open('AXIOMS.txt', 'w') as f:
    for n, a, b in lines:
        f.write('%s: %s\n' % (n, a or 'none'))
print(len(lines), sorted({a for _, a, _ in lines}))
