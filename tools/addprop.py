"""usage: addprop.py FILE: FILE is Python code of p(...) calls plus optional status lines  #status Cnn proved note"""
import sys, json, re
code = open(sys.argv[1]).read()
f = '/verif/tools/props.py'
s = open(f).read()
i = s.index('out = os.path')
body = '\n'.join(l for l in code.split('\n') if not l.startswith('#status'))
s = s[:i] + body.strip() + '\n\n' + s[i:]
open(f, 'w').write(s)
g = '/verif/tools/status.json'
d = json.load(open(g))
for l in code.split('\n'):
    if l.startswith('#status'):
        _, c, st, *note = l.split(' ', 3)
        d[c] = [st, note[0] if note else '']
json.dump(d, open(g, 'w'), indent=0)
