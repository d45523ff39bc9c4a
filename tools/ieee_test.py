"""Writes a Lean file comparing `Verif/Model/Ieee.lean` with the doubles of Python: `python3 tools/ieee_test.py > /tmp/fl.lean`,
then `lake env lean /tmp/fl.lean` in `lean/` prints `true` for every block of cases."""
import random,struct
from fractions import Fraction as F
random.seed(5)
def rf():
    k=random.random()
    if k<.1: return random.choice([0.0,float('inf'),float('-inf'),float('nan'),5e-324,-5e-324,1.7976931348623157e308,2.2250738585072014e-308,1.0])
    if k<.4: return random.choice([-1,1])*random.random()*10**random.randint(-5,5)
    while True:
        x=struct.unpack('d',struct.pack('Q',random.getrandbits(64)))[0]
        if k<.7: 
            if x==x: return random.choice([x, -x])
        else:
            e=random.choice([random.randint(-1074,-950),random.randint(-560,-500),random.randint(500,520)])
            return random.choice([-1,1])*random.randint(0,2**53)*2.0**max(-1074,e-52) if e-52>=-1074 else random.choice([-1,1])*random.randint(0,2**20)*5e-324
def enc(x):
    if x!=x: return '.nan'
    if x in (float('inf'),float('-inf')): return f'.inf {"true" if x<0 else "false"}'
    m=F(x)*2**1074
    assert m.denominator==1
    return f'mk ({m.numerator})'
def dv(a,b):
    if b==0:
        if a!=a or a==0: return float('nan')
        return float('inf') if a>0 else float('-inf')
    return a/b
out=[]
for _ in range(600):
    a,b=rf(),rf()
    if random.random()<.1: b=a
    if random.random()<.1: b=-a*(1+random.choice([0,2.0**-52,2.0**-51]))
    out.append(f"({enc(a)}, {enc(b)}, {enc(a+b)}, {enc(a-b)}, {enc(a*b)}, {enc(dv(a,b))}, {str(a<b).lower()}, {str(a<=b).lower()}, {str(a==b).lower()})")
print("import Verif.Model.Ieee\nopen PyEMD\ndef mk (m : ℤ) : F64 := Ieee.round m 1 Nat.one_pos\n")
chunks=[out[i:i+50] for i in range(0,len(out),50)]
for i,c in enumerate(chunks):
    print(f"def L{i} : List (F64 × F64 × F64 × F64 × F64 × F64 × Bool × Bool × Bool) := [" + ",\n ".join(c) + "]")
    print(f"#eval (L{i}.map (fun (a,b,s,d,m,q,l,le,eq) => [decide (a+b = s), decide (a-b = d), decide (a*b = m), decide (a/b = q), decide (decide (a<b) = l), decide (decide (a≤b)=le), decide ((a==b)=eq)])).flatten.all id")
