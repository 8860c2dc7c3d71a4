"""Apply seeded bugs to a scratch copy of the Lean project and log which theorems fail.

usage: mutate.py <scratch dir> <mutations.json>
Each mutation: {"file", "old", "new", "definition", "edit", "breaks"}; results are appended to seeded/LOG.jsonl.
"""
import json, re, subprocess, sys, os, shutil
root = os.path.dirname(os.path.dirname(os.path.abspath(__file__)))
scratch, muts = sys.argv[1], json.load(open(sys.argv[2]))
dry = '--dry' in sys.argv
# which property theorems depend on a declaration
users = {}
shutil.copy(root + '/tools/deps.txt', '/tmp/deps.lean')
for l in subprocess.run(['lake', 'env', 'lean', '/tmp/deps.lean'], cwd=root + '/lean', capture_output=True, text=True).stdout.replace('\n  ', ' ').split('\n'):
    w = l.split()
    if w[:1] == ['DEP']:
        for d in w[2:]: users.setdefault(d, set()).add(w[1].split('.')[-1])


def resting_on(fail):
    """The property theorems that rest on a failed lemma, given as File.lean:name."""
    if ':' not in fail: return set()
    name = fail.split(':', 1)[1]
    return set().union(*[users[d] for d in users if d.endswith('.' + name)]) if not name.startswith('example') else set()


# the scratch directory is replaced: only accept a new one or an earlier copy of the project, with nothing else in it
if os.path.isdir(scratch):
    extra = set(os.listdir(scratch)) - {'Verif', 'Verif.lean', 'lakefile.toml', 'lake-manifest.json', 'lean-toolchain', '.lake', '.gitignore'}
    assert not extra, ('scratch directory holds other files', sorted(extra))
assert os.path.abspath(scratch) != root and not root.startswith(os.path.abspath(scratch) + os.sep) and not os.path.abspath(scratch).startswith(root + os.sep)
os.makedirs(scratch, exist_ok=True)
subprocess.run(['rsync', '-a', '--delete', root + '/lean/', scratch + '/'], check=True) if shutil.which('rsync') else \
    subprocess.run(f'rm -rf {scratch} && cp -a {root}/lean {scratch}', shell=True, check=True)


def enclosing(path, line):
    name = '?'
    for i, l in enumerate(open(path), 1):
        if i > line: break
        m = re.match(r'(?:private |protected |@\[[^\]]*\] ?)*(theorem|def|example|instance|abbrev)\s*(\S*)', l)
        if m: name = m.group(2) if m.group(1) != 'example' else f'example@{i}'
    return name


for m in muts:
    path = os.path.join(scratch, 'Verif', m['file'])
    src = open(path).read()
    assert src.count(m['old']) >= 1, ('not found', m['old'])
    assert src.count(m['old']) == 1 or m.get('nth') is not None, ('ambiguous', m['old'], src.count(m['old']))
    if m.get('nth') is not None:
        parts = src.split(m['old']); k = m['nth']
        new = m['old'].join(parts[:k + 1]) + m['new'] + m['old'].join(parts[k + 1:])
    else:
        new = src.replace(m['old'], m['new'])
    open(path, 'w').write(new)
    out = subprocess.run(['lake', 'build'], cwd=scratch, capture_output=True, text=True)
    txt = out.stdout + out.stderr
    fails = []
    for f, l in re.findall(r'error: (?:\./)?(Verif/\S+?\.lean):(\d+)', txt):
        n = enclosing(os.path.join(scratch, f), int(l))
        s = f"{os.path.basename(f)}:{n}" if not n.startswith('C') else n
        if s not in fails: fails.append(s)
    if out.returncode != 0 and not fails: fails = ['(no theorem named: ' + '; '.join(re.findall(r'error: (.*)', txt))[:120] + ')']
    open(path, 'w').write(src)
    rest = sorted(set().union(*[resting_on(f) for f in fails]) - set(fails)) if fails else []
    rec = dict(definition=m['definition'], edit=m['edit'], claim_broken=m['breaks'], theorems_failed=fails, theorems_resting_on_them=rest, theorems_tightened=m.get('tightened', []))
    print(('CAUGHT ' if fails else 'SURVIVED '), m['definition'], '|', m['edit'], '|', ', '.join(fails)[:300], flush=True)
    if not dry:
        open(os.path.join(root, 'seeded', 'LOG.jsonl'), 'a').write(json.dumps(rec) + '\n')
