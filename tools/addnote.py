# usage: addnote.py ID STATUS NOTE  -- set the status of a property in notes.py
import sys,re
p='/verif/tools/notes.py'
ns={}
exec(open(p).read(),ns)
S=ns['STATUS']
S[sys.argv[1]]=(sys.argv[2],sys.argv[3] if len(sys.argv)>3 else '')
with open(p,'w') as f:
    f.write('# property -> (status, note)\nSTATUS = {\n')
    for k in sorted(S): f.write(f' {k!r}: {S[k]!r},\n')
    f.write('}\n')
