import sys; sys.path.insert(0,'/verif/tools/hashvec')
from bls import *
m=bytes(30)+(124).to_bytes(2,'big')
out=[]
w=out.append
def blist(b):
    return "(["+", ".join(str(x) for x in b)+"] : List ℕ).map fun k => BitVec.ofNat 8 k"
w('''import Verif.Bls.SampleVec
import Verif.Bls.PropsExc

/-! # C60: a message evaluated in the specification, with two field elements and with one

Generated by tools/hashvec/gen.py (numbers only; every number is checked by the kernel against the specification).  The message meets the
hypotheses of the theorems of C60, and has more than one accepted hash. -/

namespace Verif.Bls
open RFC Verif.Ec Verif.Api QuadraticAlgebra

namespace HashVec

/-- The message: `00 … 00 7c`. -/
def msgB : RFC.Bytes := List.replicate 31 0 ++ [124]
''')
def chain(n,pre):
    b0,bs=xmd(m,n*128)
    w(f"def {pre}0 : RFC.Bytes :=\n  {blist(b0)}")
    for i,b in enumerate(bs): w(f"def {pre}{i+1} : RFC.Bytes :=\n  {blist(b)}")
    w("")
    w(f"theorem {pre}0_eq : RFC.b0 msgB {n*128} = {pre}0 := by decide +kernel")
    w(f"theorem {pre}1_eq : RFC.b {pre}0 1 = {pre}1 := by decide +kernel")
    N=len(bs)
    for i in range(2,N+1):
        w(f"theorem {pre}{i}_eq : RFC.H (List.zipWith (· ^^^ ·) {pre}0 {pre}{i-1} ++ Sha.Spec.beBytes 1 {i} ++ dstPrime) = {pre}{i} := by decide +kernel")
    w("")
    allb=" ++ ".join(f"{pre}{i}" for i in range(1,N+1))
    w(f"theorem {pre}_expand : RFC.expand msgB {n*128} = {allb} := by")
    for i in range(2,N+1):
        pr=f"{pre}1_eq" if i==2 else f"e{i-1}"
        w(f"  have e{i} : RFC.b {pre}0 {i} = {pre}{i} := by rw [← {pre}{i}_eq, ← {pr}]; rfl")
    w(f"  have hr : List.range (({n*128} + 31) / 32) = [{', '.join(str(i) for i in range(N))}] := by decide")
    w(f"  unfold RFC.expand")
    w(f"  rw [{pre}0_eq, hr]")
    w(f"  simp only [List.map_cons, List.map_nil, Nat.zero_add, Nat.reduceAdd]")
    w(f"  rw [{pre}1_eq, {', '.join(f'e{i}' for i in range(2,N+1))}]")
    w(f"  decide +kernel\n")
    return allb
def e2(v): return f"⟨(({v[0]} : ℕ) : Fq),\n   (({v[1]} : ℕ) : Fq)⟩"
def d(name,v,doc=None):
    if doc: w(f"/-- {doc} -/")
    w(f"def {name} : E2 Fq :=\n  {e2(v)}")
def isoeval(x,y):
    I=(0,1)
    sc=lambda k,a:(k*a[0]%q,k*a[1]%q)
    one=(1,0)
    omi=(1,q-1); opi=(1,1)
    D=add(x,(6,q-6))
    x2=mul(x,x);x3=mul(x2,x)
    X=add(add(x3,sc(12,mul(omi,x2))),add(sc(-24,mul(I,x)),sc(304,opi)))
    X=mul(X,inv(sc(9,mul(D,D))))
    Y=add(add(x3,sc(18,mul(omi,x2))),add(sc(-264,mul(I,x)),sc(-752,opi)))
    Y=mul(neg(mul(y,Y)),inv(sc(27,mul(D,mul(D,D)))))
    return X,Y
def ecadd(P,Q):
    l=mul(add(Q[1],neg(P[1])),inv(add(Q[0],neg(P[0]))))
    x=add(mul(l,l),neg(add(P[0],Q[0])))
    return x,add(mul(l,add(P[0],neg(x))),neg(P[1]))
def ecdbl(P):
    l=mul(mul((3,0),mul(P[0],P[0])),inv(mul((2,0),P[1])))
    x=add(mul(l,l),neg(add(P[0],P[0])))
    return x,add(mul(l,add(P[0],neg(x))),neg(P[1]))
def negp(P): return P[0],neg(P[1])
def smul(k,P):
    R=None
    for b in bin(k)[2:]:
        if R: R=ecdbl(R)
        if b=='1': R=ecadd(R,P) if R else P
    return R
XX=0xd201000000010000
u_=(0,4002409555221667392624310435006688643935503118305586438271171395842971157480381377015405980053539358417135540939437)
v_=(2973677408986561043442465346520108879172042883009249989176415018091420807192182638567116318576472649347015917690530,1028732146235106349975324479215795277384839936929757896155643118032610843298655225875571310552543014690878354869257)
def conj(a): return (a[0],-a[1]%q)
def psi(P): return mul(conj(P[0]),u_),mul(conj(P[1]),v_)
def clear(P):
    x1=negp(smul(XX,P)); x2=negp(smul(XX,x1))
    r=ecadd(ecadd(x2,negp(x1)),negp(P)); t=ecadd(x1,negp(P))
    return ecadd(ecadd(r,psi(t)),psi(psi(ecdbl(P))))
def pt(name,P,doc):
    w(f"/-- {doc} -/\ndef {name} : G2Affine Fq :=\n  ⟨{e2(P[0])},\n  {e2(P[1])}⟩")
def vec(nm,u):
    sq,x1,x,y=sswu(u)
    assert mul(y,y)==g(x)
    d(nm+"U",u); d(nm+"W",x1,"The first candidate of the map."); d(nm+"X",x); d(nm+"Y",y)
    R=isoeval(x,y); pt(nm+"R",R,"The point of the twist.")
    br="sq" if sq else "nsq"
    w(f"theorem {nm}_check : check{'' if sq else 'N'} {nm}U {nm}W {nm}X {nm}Y {nm}R = true := by decide +kernel")
    w(f"theorem {nm}_map : ∃ P, MapTo {nm}U.val P ∧ AR {nm}R P := check{'' if sq else 'N'}_map {nm}_check\n")
    return R
w(open('/verif/tools/hashvec/pre.txt').read())
w("/-! ## Two field elements -/\n")
us=h2f(m,2)[2]; es=h2f(m,1)[2]
A2=chain(2,'s')
R0=vec("a",us[0]); R1=vec("c",us[1])
w("theorem field2 : RFC.hashToField msgB 2 = [aU.val, cU.val] := by\n  have hr : List.range 2 = [0, 1] := by decide\n  unfold RFC.hashToField\n  rw [hr, List.map_cons, List.map_cons, List.map_nil, show 2 * 2 * 64 = 256 by norm_num, s_expand]")
for i,(n,c) in enumerate([("aU","a0"),("aU","a1"),("cU","a0"),("cU","a1")]):
    ix=f"(2 * {i//2})" if i%2==0 else f"(2 * {i//2} + 1)"
    w(f"  have e{i} : RFC.elem ({A2}) {ix} = {n}.{c} := by decide +kernel")
w("  rw [e0, e1, e2, e3]\n  rfl\n")
S=ecadd(R0,R1); Dd=ecadd(negp(R0),R1)
pt("sumR",S,"The sum."); pt("diffR",Dd,"The sum with the sign of the first point flipped.")
zs,zd=clear(S),clear(Dd)
pt("hash1",zs,"The hash of RFC 9380."); pt("hash2",zd,"Another accepted hash.")
w("theorem sum_num : g2Add aR cR = some sumR ∧ g2Add (g2Neg aR) cR = some diffR := by decide +kernel")
w("theorem clear_num : vecClear sumR = some hash1 ∧ vecClear diffR = some hash2 ∧ hash1 ≠ hash2 := by decide +kernel")
w("theorem small2 : canon aU.a0 < 2 ^ 381 - q := by decide +kernel\n")
w("/-! ## One field element -/\n")
A1=chain(1,'t')
E0=vec("e",es[0])
w("theorem field1 : RFC.hashToField msgB 1 = [eU.val] := by\n  have hr : List.range 1 = [0] := by decide\n  unfold RFC.hashToField\n  rw [hr, List.map_cons, List.map_nil, show 1 * 2 * 64 = 128 by norm_num, t_expand]")
for i,c in enumerate(["a0","a1"]):
    w(f"  have e{i} : RFC.elem ({A1}) (2 * 0{' + 1' if i else ''}) = eU.{c} := by decide +kernel")
w("  rw [e0, e1]\n  rfl\n")
pt("enc1",clear(E0),"The encoding of RFC 9380.")
w("theorem clear1 : vecClear eR = some enc1 ∧ enc1 ≠ g2Neg enc1 := by decide +kernel")
w("theorem small1 : canon eU.a0 < 2 ^ 381 - q := by decide +kernel\n")
w(open('/verif/tools/hashvec/post.txt').read())
open('/verif/lean/Verif/Bls/HashVec.lean','w').write("\n".join(out))
