#!/bin/bash
# build a module and print errors only
cd ${LEANDIR:-/verif/lean} && lake build "$@" 2>&1 | python3 -c "
import sys,re
t=sys.stdin.read()
parts=re.split(r'\n(?=(?:error|warning|info|trace|✔|⚠|✖|Build|Some))','\n'+t)
n=0
for q in parts:
    q=q.strip('\n')
    if q.startswith('error') and not q.startswith('error: Lean exited') and not q.startswith('error: build failed'):
        print(q[:${NCH:-1300}]); n+=1
        if n>=${NERR:-6}: break
    elif q.startswith('Build completed') or q.startswith('Some required'): print(q)
    elif 'sorry' in q: print(q[:300])
"
