import hashlib
q=4002409555221667393417789825735904156556882819939007885332058136124031650490837864442687629129015664037894272559787
DST=b"BLS_SIG_BLS12381G2_XMD:SHA-256_SSWU_RO_POP_"
dp=DST+bytes([len(DST)])
def H(x): return hashlib.sha256(x).digest()
def xmd(msg,n):
    b0=H(bytes(64)+msg+n.to_bytes(2,'big')+b'\0'+dp)
    bs=[H(b0+b'\1'+dp)]
    for i in range(2,(n+31)//32+1):
        bs.append(H(bytes(a^b for a,b in zip(b0,bs[-1]))+bytes([i])+dp))
    return b0,bs
def h2f(msg,n):
    b0,bs=xmd(msg,n*128); u=b''.join(bs)
    e=[int.from_bytes(u[64*i:64*i+64],'big')%q for i in range(2*n)]
    return b0,bs,[(e[2*i],e[2*i+1]) for i in range(n)]
def add(a,b): return ((a[0]+b[0])%q,(a[1]+b[1])%q)
def mul(a,b): return ((a[0]*b[0]-a[1]*b[1])%q,(a[0]*b[1]+a[1]*b[0])%q)
def neg(a): return (-a[0]%q,-a[1]%q)
def inv(a):
    t=pow(a[0]*a[0]+a[1]*a[1],-1,q); return (a[0]*t%q,-a[1]*t%q)
def fsqrt(a):
    r=pow(a,(q+1)//4,q); return r if r*r%q==a%q else None
def sqrt2(a):
    if a[1]==0:
        r=fsqrt(a[0])
        if r is not None:return (r,0)
        r=fsqrt(-a[0]%q); return (0,r)
    n=fsqrt((a[0]**2+a[1]**2)%q)
    if n is None:return None
    for s in (n,-n):
        x=fsqrt((a[0]+s)*pow(2,-1,q)%q)
        if x: 
            y=a[1]*pow(2*x,-1,q)%q
            if mul((x,y),(x,y))==a:return (x,y)
    return None
A=(0,240);B=(1012,1012);Z=(q-2,q-1)
def g(x): return add(add(mul(mul(x,x),x),mul(A,x)),B)
def sgn(x): return x[0]%2 or (x[0]==0 and x[1]%2)
def sswu(u):
    t=mul(Z,mul(u,u)); d=add(mul(t,t),t)
    x1=mul(mul(neg(B),inv(A)),add((1,0),inv(d)))
    y=sqrt2(g(x1)); sq=y is not None
    x=x1
    if not sq: x=mul(t,x1); y=sqrt2(g(x))
    if sgn(y)!=sgn(u): y=neg(y)
    return sq,x1,x,y
if __name__=="__main__":
    L=2**381-q
    for k in range(3000):
        m=bytes(30)+k.to_bytes(2,'big')
        us=h2f(m,2)[2]; e=h2f(m,1)[2]
        if us[0][0]<L and e[0][0]<L:
            r=[sswu(u)[0] for u in us+e]
            print(k,r)
            if r==[True,False,True] : break
