import sys, random, math, json
from math import gcd, isqrt
sys.setrecursionlimit(10000)
random.seed(12345)
# ---------- fixed point complex arithmetic ----------
def pi_fixed(prec):
    # Machin
    p=prec+32
    def arctan_inv(x):
        t=(1<<p)//x; s=t; n=1; x2=x*x; sign=-1
        while t:
            t//=x2; n+=2; s+=sign*(t//n); sign=-sign
        return s
    return (4*(4*arctan_inv(5)-arctan_inv(239)))>>32
def exp_fixed(x,prec):  # x fixed, any sign, moderate
    p=prec+64
    k=20
    X=(x<<64)>>k
    s=1<<p;t=1<<p;n=1
    while True:
        t=(t*X>>p)//n
        if t==0 or t==-1: break
        s+=t;n+=1
    for _ in range(k): s=s*s>>p
    return s>>64
def cossin(x,prec):
    p=prec+64;k=20
    X=(x<<64)>>k
    # complex exp
    re=1<<p;im=0;tr=1<<p;ti=0;n=1
    while True:
        tr,ti=-(ti*X>>p)//n,(tr*X>>p)//n
        if abs(tr)<=1 and abs(ti)<=1: break
        re+=tr;im+=ti;n+=1
    for _ in range(k): re,im=(re*re-im*im)>>p,(2*re*im)>>p
    return re>>64,im>>64
class C:
    __slots__=('r','i')
    P=0
    def __init__(s,r,i=0): s.r=r;s.i=i
    def __mul__(a,b):
        P=C.P
        return C((a.r*b.r-a.i*b.i)>>P,(a.r*b.i+a.i*b.r)>>P)
    def __add__(a,b): return C(a.r+b.r,a.i+b.i)
    def __sub__(a,b): return C(a.r-b.r,a.i-b.i)
    def inv(a):
        P=C.P
        d=a.r*a.r+a.i*a.i
        return C((a.r<<(2*P))//d if True else 0, -(a.i<<(2*P))//d)
def cpow(a,n):
    r=None
    while n:
        if n&1: r=a if r is None else r*a
        n>>=1
        if n: a=a*a
    return r
def forms(D):
    out=[]
    b=D%2
    while b*b<=D//3+1:
        q=(b*b+D)//4
        a=max(b,1)
        while a*a<=q:
            if q%a==0:
                c=q//a
                if gcd(gcd(a,b),c)==1 and b<=a<=c:
                    out.append((a,b,c))
                    if b>0 and a!=b and a!=c: out.append((a,-b,c))
            a+=1
        b+=2
    return out
def hilbert(D):
    F=forms(D)
    bits=int(math.pi*math.sqrt(D)/math.log(2)*sum(1.0/a for a,_,_ in F))+ 200+10*len(F)
    # w can be tiny: |w|~ |q|; relative precision: add
    prec=2*bits+int(2*math.pi*math.sqrt(D)/math.log(2))+200
    C.P=prec
    pi=pi_fixed(prec)
    one=1<<prec
    sq=isqrt(D<<(2*prec))
    js=[]
    for a,b,c in F:
        # tau=(-b+i sqrt D)/2a ; q=exp(2 pi i tau)=exp(-pi sqrtD/a) * e^{-pi i b/a}
        m=exp_fixed(-(pi*sq>>prec)//a,prec)
        cs,sn=cossin(-(pi*b)//a,prec)
        q=C(m*cs>>prec,m*sn>>prec)
        def eu(q):
            # prod (1-q^n) = sum (-1)^n q^{n(3n-1)/2}
            s=C(one);n=1
            while True:
                e1=n*(3*n-1)//2;e2=n*(3*n+1)//2
                t1=cpow(q,e1)
                if abs(t1.r)<=1 and abs(t1.i)<=1: break
                t=t1+cpow(q,e2)
                s=s-t if n&1 else s+t
                n+=1
            return s
        E1=eu(q);E2=eu(q*q)
        r=E2*E1.inv()
        w=q*cpow(r,24)
        t=C(one+256*w.r,256*w.i)
        j=cpow(t,3)*w.inv()
        js.append(j)
    # poly
    poly=[C(one)]
    for j in js:
        new=[C(0)]*(len(poly)+1)
        new=[C(0) for _ in range(len(poly)+1)]
        for k,cf in enumerate(poly):
            new[k+1]=new[k+1]+cf
            new[k]=new[k]-cf*j
        poly=new
    res=[]
    for cf in poly:
        v=(cf.r+(one>>1))>>prec
        if abs(cf.r-(v<<prec))>one>>8 or abs(cf.i)>one>>8: raise Exception('precision %d'%D)
        res.append(v)
    return res
# ---------- number theory ----------
def isprp(n):
    if n<2: return False
    for p in (2,3,5,7,11,13,17,19,23,29,31,37):
        if n%p==0: return n==p
    d=n-1;s=0
    while d%2==0: d//=2;s+=1
    for a in (2,3,5,7,11,13,17,19,23,29,31,37):
        x=pow(a,d,n)
        if x in(1,n-1): continue
        for _ in range(s-1):
            x=x*x%n
            if x==n-1: break
        else: return False
    return True
def jac(a,n):
    a%=n;r=1
    while a:
        while a%2==0:
            a//=2
            if n%8 in(3,5): r=-r
        a,n=n,a
        if a%4==3 and n%4==3: r=-r
        a%=n
    return r if n==1 else 0
def sqrtmod(a,p):
    a%=p
    if a==0: return 0
    if jac(a,p)!=1: return None
    if p%4==3: return pow(a,(p+1)//4,p)
    q=p-1;s=0
    while q%2==0:q//=2;s+=1
    z=2
    while jac(z,p)!=-1: z+=1
    m=s;c=pow(z,q,p);t=pow(a,q,p);r=pow(a,(q+1)//2,p)
    while t!=1:
        i=0;tt=t
        while tt!=1: tt=tt*tt%p;i+=1
        b=pow(c,1<<(m-i-1),p);m=i;c=b*b%p;t=t*c%p;r=r*b%p
    return r
def cornacchia4(D,N):
    # 4N = t^2 + D v^2
    x=sqrtmod(-D,N)
    if x is None: return None
    if x%2!=D%2: x=N-x
    a,b=2*N,x
    l=isqrt(4*N)
    while b>l: a,b=b,a%b
    r=4*N-b*b
    if r%D: return None
    v=isqrt(r//D)
    if v*v!=r//D: return None
    return b,v
# polys mod N
def pmulmod(f,g,m,N):
    r=[0]*(len(f)+len(g)-1)
    for i,a in enumerate(f):
        if a:
            for j,b in enumerate(g): r[i+j]+=a*b
    r=[x%N for x in r]
    return pmod(r,m,N)
def pmod(r,m,N):
    r=r[:];d=len(m)-1;inv=pow(m[-1],-1,N)
    while len(r)>d:
        c=r[-1]*inv%N
        if c:
            o=len(r)-1-d
            for i in range(d): r[o+i]=(r[o+i]-c*m[i])%N
        r.pop()
    while r and r[-1]==0: r.pop()
    return r
def pgcd(a,b,N):
    while b: a,b=b,pmod(a,b,N)
    inv=pow(a[-1],-1,N)
    return [x*inv%N for x in a]
def pdiv(a,b,N):
    a=a[:];q=[0]*(len(a)-len(b)+1);inv=pow(b[-1],-1,N)
    for i in range(len(q)-1,-1,-1):
        c=a[i+len(b)-1]*inv%N;q[i]=c
        for j in range(len(b)): a[i+j]=(a[i+j]-c*b[j])%N
    return q
def ppow(f,e,m,N):
    r=[1]
    f=pmod(f,m,N)
    while e:
        if e&1: r=pmulmod(r,f,m,N)
        f=pmulmod(f,f,m,N);e>>=1
    return r
def findroot(f,N):
    f=[x%N for x in f]
    while len(f)>2:
        a=random.randrange(N)
        h=ppow([a,1],(N-1)//2,f,N)
        h=h+[0]*(1-len(h)) if not h else h
        h[0]=(h[0]-1)%N
        while h and h[-1]==0:h.pop()
        if not h: continue
        g=pgcd(f,h,N)
        if 1<len(g)<len(f):
            o=pdiv(f,g,N)
            f=g if len(g)<=len(o) else o
            inv=pow(f[-1],-1,N);f=[x*inv%N for x in f]
    return (-f[0]*pow(f[1],-1,N))%N
# EC affine
def ecadd(P,Q,a,N):
    if P is None: return Q
    if Q is None: return P
    if P[0]==Q[0]:
        if (P[1]+Q[1])%N==0: return None
        l=(3*P[0]*P[0]+a)*pow(2*P[1],-1,N)%N
    else: l=(Q[1]-P[1])*pow(Q[0]-P[0],-1,N)%N
    x=(l*l-P[0]-Q[0])%N
    return x,(l*(P[0]-x)-P[1])%N
def ecmul(k,P,a,N):
    R=None
    while k:
        if k&1: R=ecadd(R,P,a,N)
        k>>=1
        if k: P=ecadd(P,P,a,N)
    return R
# trial division
B=1<<21
sieve=bytearray([1])*(B);sieve[0]=sieve[1]=0
for i in range(2,isqrt(B)+1):
    if sieve[i]: sieve[i*i::i]=bytearray(len(range(i*i,B,i)))
primes=[i for i in range(B) if sieve[i]]
def prod(l):
    if len(l)==1:return l[0]
    h=len(l)//2
    return prod(l[:h])*prod(l[h:])
chunks=[prod(primes[i:i+4000]) for i in range(0,len(primes),4000)]
def smooth_part_removed(m):
    c=m
    for ch in chunks:
        while True:
            g=gcd(c,ch%c if ch>c else ch)
            if g==1: break
            c//=g
            if c==1: return 1
    return c
discs=None
def fundamental(D):
    # -D fundamental
    if D%4==3:
        m=D
    elif D%4==0:
        m=D//4
        if m%4 not in (1,2): return False
    else: return False
    i=2
    mm=m
    while i*i<=mm:
        if mm%(i*i)==0: return False
        i+=1
    return True
def load_discs(maxD,maxh):
    L=[]
    for D in range(3,maxD):
        if fundamental(D):
            h=len(forms(D))
            if h<=maxh: L.append((h,D))
    L.sort()
    return L
hc={}
def H(D):
    if D not in hc: hc[D]=hilbert(D)
    return hc[D]
def candidates(N):
    s2=isqrt(4*N)+3
    for h,D in discs:
        if jac(-D,N)!=1: continue
        # genus check: skip
        tv=cornacchia4(D,N)
        if tv is None: continue
        t,v=tv
        ts={t,-t}
        if D==4: ts|={2*v,-2*v}
        if D==3:
            ts|={(t+3*v)//2,-(t+3*v)//2,(t-3*v)//2,-(t-3*v)//2}
        for t in ts:
            m=N+1-t
            c=smooth_part_removed(m)
            if c>s2 and c<m and c.bit_length()<N.bit_length() and isprp(c):
                yield D,m,c
def build(N,D,m,q):
    k=m//q
    if D==4: cs=[(None,'a')]
    if D in(3,4):
        for _ in range(200):
            g=random.randrange(1,N)
            a,b=(0,g) if D==3 else (g,0)
            r=trycurve(N,a,b,m,q,k)
            if r: return r
        return None
    j=findroot(H(D),N)
    if j in (0,1728%N): return None
    kk=j*pow(1728-j,-1,N)%N
    a=3*kk%N;b=2*kk%N
    for _ in range(40):
        c=random.randrange(1,N)
        r=trycurve(N,a*c*c%N,b*c*c*c%N,m,q,k)
        if r: return r
    return None
def trycurve(N,a,b,m,q,k):
    if gcd(4*a**3+27*b*b,N)!=1: return None
    for _ in range(6):
        while True:
            x=random.randrange(N)
            y=sqrtmod(x**3+a*x+b,N)
            if y: break
        P=(x,y)
        R=ecmul(k,P,a,N)
        if R is None: continue
        if ecmul(q,R,a,N) is not None: return None
        return (a,b,R[0],R[1])
    return None
def prove(N,depth=0,limit=None):
    if N < (1<<30):
        return [] if isprp(N) else None
    tries=0
    best=[]
    for D,m,q in candidates(N):
        tries+=1
        cert=build(N,D,m,q)
        if cert is None:
            print('  build failed D=%d'%D,file=sys.stderr); continue
        print('%s %d bits D=%d -> %d bits'%(' '*0,N.bit_length(),D,q.bit_length()),file=sys.stderr,flush=True)
        rest=prove(q,depth+1)
        if rest is not None:
            return [dict(N=str(N),a=str(cert[0]),b=str(cert[1]),x=str(cert[2]),y=str(cert[3]),q=str(q))]+rest
        if tries>=3: break
    print('dead end %d bits'%N.bit_length(),file=sys.stderr)
    return None
if __name__=='__main__':
    discs=load_discs(6000,12)
    print(len(discs),file=sys.stderr)
    name=sys.argv[1];N=int(sys.argv[2],16)
    assert isprp(N)
    c=prove(N)
    json.dump(c,open('/root/ecpp/%s.json'%name,'w'),indent=0)
    print(name,len(c) if c else None)
