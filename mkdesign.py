#!/usr/bin/env python3
# Fills the axiom counts into DESIGN.md from DESIGN.md.in; argument: output of `#print axioms` for every manifest theorem.
import re,sys,collections,os
os.chdir(os.path.dirname(os.path.abspath(__file__)))
t=re.sub(r'\s+',' ',open(sys.argv[1]).read())
c=collections.Counter(len(x.split(',')) for x in re.findall(r"depends on axioms: \[([^\]]*)\]",t)); n=t.count('does not depend')
for x in re.findall(r"depends on axioms: \[([^\]]*)\]",t): assert set(y.strip() for y in x.split(','))<={'propext','Classical.choice','Quot.sound'}
s=open('DESIGN.md.in').read()
for k,v in (('@NTH@',sum(c.values())+n),('@AX3@',c[3]),('@AX2@',c[2]),('@AX1@',c[1]),('@AX0@',n),('@MORE@\n','')): s=s.replace(k,str(v))
open('DESIGN.md','w').write(s)
