"""A transliteration of the Lean model to Python floats (f64), compared with the expected values in the unit tests
of the crate and with random rays.  A sanity check of the model by hand: not a proof, and the Rust code is not run."""
import math, random
def tailDot(i,a,b):
    if i==0: return a[0]*b[0]+a[1]*b[1]+a[2]*b[2]
    if i==1: return a[1]*b[1]+a[2]*b[2]
    return a[2]*b[2]
def signum(x): return -1. if x<0 else 1.
def col(m,c): return [m[r][c] for r in range(3)]
def reflect(i,axis,sign,c):
    f=(tailDot(i,axis,c)-0)*(sign*-2.)
    return [f*axis[r]+sign*c[r] if i<=r else c[r] for r in range(3)]
def reflectionAxis(i,x):
    sq=tailDot(i,x,x); norm=math.sqrt(sq); mod=abs(x[i])
    sign=1. if mod==0 else x[i]/mod
    sn=sign*norm
    factor=(sq+mod*norm)*2.
    x=list(x); x[i]=x[i]+sn
    if factor==0: return x,sn,False
    s=math.sqrt(factor)
    x=[x[r]/s if i<=r else x[r] for r in range(3)]
    n=math.sqrt(tailDot(i,x,x))
    x=[x[r]/n if i<=r else x[r] for r in range(3)]
    return x,-sn,True
def clearColumn(i,m):
    a=reflectionAxis(i,col(m,i))
    o=[list(r) for r in m]
    for r in range(3): o[r][i]=a[0][r]
    if a[2]:
        for c in range(i+1,3):
            z=reflect(i,a[0],signum(a[1]),col(m,c))
            for r in range(3): o[r][c]=z[r]
    return o,a[1]
def qrNew(m):
    a,s0=clearColumn(0,m); b,s1=clearColumn(1,a); c,s2=clearColumn(2,b)
    return c,[s0,s1,s2]
def qrR(qr): return [[qr[0][i][j] if i<j else abs(qr[1][i]) if i==j else 0. for j in range(3)] for i in range(3)]
def qStep(qr,i,res):
    o=[list(r) for r in res]
    for b in range(i,3):
        z=reflect(i,col(qr[0],i),signum(qr[1][i]),col(res,b))
        for a in range(3): o[a][b]=z[a]
    return o
I3=[[1. if a==b else 0. for b in range(3)] for a in range(3)]
def qrQ(qr): return qStep(qr,0,qStep(qr,1,qStep(qr,2,I3)))
def camax(m):
    x=None
    for c in range(3):
        for r in range(3):
            v=abs(m[r][c])
            x=v if x is None or x<v else x
    return x
def sym(m,r,c): return m[r][c] if c<=r else m[c][r]
def tridiagStep(i,k,m):
    axis,n,ok=reflectionAxis(k,col(m,i))
    o=[list(r) for r in m]
    if ok:
        p=[2.*tailDot(k,[sym(m,r,c) for c in range(3)],axis) for r in range(3)]
        dot=tailDot(k,axis,p)
        for r in range(3):
            for c in range(3):
                if c==i: o[r][c]=axis[r]
                elif k<=c<=r: o[r][c]=dot*2.*axis[r]*axis[c]+(-1*axis[r]*p[c]+(-1*p[r]*axis[c]+m[r][c]))
    else:
        for r in range(3): o[r][i]=axis[r]
    return o,n
def toExp(x): return (x,1.) if 0<=x else (-x,-1.)
def cancelY(x,y):
    if y==0: return None
    e=toExp(x); d=math.sqrt(e[0]*e[0]+y*y)
    return (e[0]/d,-y/(e[1]*d)),e[1]*d
def gtry(x,y,eps):
    e=toExp(x); d=math.sqrt(e[0]*e[0]+y*y)
    return (e[0]/d,y/(e[1]*d)) if eps<d else None
def rotateRows(g,i,q):
    o=[list(r) for r in q]
    for r in range(3):
        o[r][i]=q[r][i]*g[0]+q[r][i+1]*g[1]
        o[r][i+1]=-g[1]*q[r][i]+q[r][i+1]*g[0]
    return o
def wil(tmm,tnn,tmn):
    sq=tmn*tmn
    if sq==0: return tnn
    d=(tmm-tnn)*0.5
    return tnn-sq/(d+signum(d)*math.sqrt(d*d+sq))
class T: pass
ITER=[0]
def delimit(eps,t,e):
    m=e
    while m>0:
        if eps*(abs(t.d[m])+abs(t.d[m-1]))<abs(t.o[m-1]): break
        m-=1
    n=m
    if n==0: return 0,0
    m=n-1
    while m>0:
        if t.o[m-1]==0 or abs(t.o[m-1])<=eps*(abs(t.d[m])+abs(t.d[m-1])):
            t.o[m-1]=0.; return m,n
        m-=1
    return 0,n
def sweep(t,start,n,x,y):
    for i in range(start,n):
        g=cancelY(x,y)
        if g is None: break
        (c,s),norm=g
        if start<i: t.o[i-1]=norm
        mii,mjj,mij=t.d[i],t.d[i+1],t.o[i]
        cc,ss,cs=c*c,s*s,c*s
        b=cs*2.*mij
        t.d[i]=(cc*mii+ss*mjj)-b
        t.d[i+1]=(ss*mii+cc*mjj)+b
        t.o[i]=cs*(mii-mjj)+mij*(cc-ss)
        t.q=rotateRows((c,-s),i,t.q)
        if i!=n-1:
            x=t.o[i]; y=-s*t.o[i+1]; t.o[i+1]=t.o[i+1]*c
def eig2(a,b,c):
    v=(a-c)*.5; d=math.sqrt(b*b+v*v); h=(a+c)*.5
    return h+d,h-d
def body(eps,t,start,e):
    if e-start+1>2:
        m=e-1
        sweep(t,start,e,t.d[start]-wil(t.d[m],t.d[e],t.o[m]),t.o[start])
        return e-1 if abs(t.o[m])<=eps*(abs(t.d[m])+abs(t.d[e])) else e
    ev=eig2(t.d[start],t.o[start],t.d[start+1])
    g=gtry(ev[0]-t.d[start+1],t.o[start],eps)
    if g: t.q=rotateRows(g,start,t.q)
    t.d[start],t.d[start+1]=ev
    return e-1
def eigenvectors(m,eps,fuel):
    a=camax(m)
    if a!=0: m=[[x/a for x in r] for r in m]
    a0,s0=tridiagStep(0,1,m); tri,s1=tridiagStep(1,2,a0)
    q1=[list(r) for r in I3]
    for b in (1,2):
        z=reflect(2,col(tri,1),signum(s1),col(I3,b))
        for r in range(3): q1[r][b]=z[r]
    q0=[list(r) for r in I3]
    for b in range(3):
        z=reflect(1,col(tri,0),signum(s0),col(q1,b))
        for r in range(3): q0[r][b]=z[r]
    t=T(); t.q=q0; t.d=[tri[i][i] for i in range(3)]; t.o=[abs(s0),abs(s1),0.]
    start,e=delimit(eps,t,2); it=0
    while e!=start:
        it+=1
        e=body(eps,t,start,e)
        start,e=delimit(eps,t,e)
        if it==fuel: return None
    ITER[0]=max(ITER[0],it)
    return t.q
def sum_(l):
    s=l[0]
    for x in l[1:]: s=s+x
    return s
def mul(a,b): return [[sum_([a[i][k]*b[k][j] for k in range(len(b))]) for j in range(len(b[0]))] for i in range(len(a))]
def tr(m): return [list(r) for r in zip(*m)]
def svd(m,eps,n):
    s=mul(tr(m),m)
    v=eigenvectors(s,eps,n)
    b=mul(m,v)
    def csq(b,c): return tailDot(0,col(b,c),col(b,c))
    for i,j in ((0,1),(0,2),(1,2)):
        if csq(b,i)<csq(b,j):
            for x in (b,v):
                for r in range(3): x[r][i],x[r][j]=x[r][j],-x[r][i]
    qr=qrNew(b)
    return qrQ(qr),[abs(x) for x in qr[1]],tr(v)
def pinv(m):
    u,s,vt=svd(m,1e-7,100)
    s=[1/x if 1e-7<x else 0. for x in s]
    return tr(mul([[u[i][j]*s[j] for j in range(3)] for i in range(3)],vt))
def cross(a,b): return [a[1]*b[2]-a[2]*b[1],a[2]*b[0]-a[0]*b[2],a[0]*b[1]-a[1]*b[0]]
def normalize(a):
    n=math.sqrt(a[0]*a[0]+a[1]*a[1]+a[2]*a[2]); return [x/n for x in a]
def shep(m):
    t=m[0][0]+m[1][1]+m[2][2]
    if 0<t:
        d=math.sqrt(t+1)*2; return (.25*d,(m[2][1]-m[1][2])/d,(m[0][2]-m[2][0])/d,(m[1][0]-m[0][1])/d)
    if m[1][1]<m[0][0] and m[2][2]<m[0][0]:
        d=math.sqrt(1+m[0][0]-m[1][1]-m[2][2])*2; return ((m[2][1]-m[1][2])/d,.25*d,(m[0][1]+m[1][0])/d,(m[0][2]+m[2][0])/d)
    if m[2][2]<m[1][1]:
        d=math.sqrt(1+m[1][1]-m[0][0]-m[2][2])*2; return ((m[0][2]-m[2][0])/d,(m[0][1]+m[1][0])/d,.25*d,(m[1][2]+m[2][1])/d)
    d=math.sqrt(1+m[2][2]-m[0][0]-m[1][1])*2; return ((m[1][0]-m[0][1])/d,(m[0][2]+m[2][0])/d,(m[1][2]+m[2][1])/d,.25*d)
def qmul(a,b):
    return (a[0]*b[0]-a[1]*b[1]-a[2]*b[2]-a[3]*b[3], a[0]*b[1]+a[1]*b[0]+a[2]*b[3]-a[3]*b[2], a[0]*b[2]-a[1]*b[3]+a[2]*b[0]+a[3]*b[1], a[0]*b[3]+a[1]*b[2]-a[2]*b[1]+a[3]*b[0])
def qrot(q,v):
    t=[x*2. for x in cross(q[1:],v)]; c=cross(q[1:],t)
    return [(t[i]*q[0]+c[i])+v[i] for i in range(3)]
def qinv(q): return (q[0],-q[1],-q[2],-q[3])
def qmat(q):
    w,i,j,k=q
    ww,ii,jj,kk=w*w,i*i,j*j,k*k
    ij,wk,wj,ik,jk,wi=i*j*2,w*k*2,w*j*2,i*k*2,j*k*2,w*i*2
    return [[ww+ii-jj-kk,ij-wk,wj+ik],[wk+ij,ww-ii+jj-kk,jk-wi],[ik-wj,wi+jk,ww-ii-jj+kk]]
def axisangle(a,th): return (math.cos(th/2),a[0]*math.sin(th/2),a[1]*math.sin(th/2),a[2]*math.sin(th/2))
class E:
    def __init__(s,q,c):
        s.q=q; s.c=list(c); s.R=qmat(q); s.t=[-sum_([s.R[i][k]*c[k] for k in range(3)]) for i in range(3)]
        s.qt=[s.R[i]+[s.t[i]] for i in range(3)]
        s.iq=qinv(q); s.it=qrot(s.iq,[-x for x in s.t])
    def w2c(s,x): return [a+b for a,b in zip(qrot(s.q,x),s.t)]
    def c2w(s,x): return [a+b for a,b in zip(qrot(s.iq,x),s.it)]
def view(c,l,up):
    up=normalize(up)
    d=normalize([a-b for a,b in zip(l,c)])
    z=normalize(d); x=normalize(cross(up,z)); y=cross(z,x)
    f=[[x[i],y[i],z[i]] for i in range(3)]
    q=qinv(shep(f))
    return E(qmul(q,axisangle(d,math.pi)),c)
class P:
    def __init__(s,fx,fy,sk,cx,cy): s.fx,s.fy,s.sk,s.cx,s.cy=fx,fy,sk,cx,cy; s.K=[[fx,sk,cx],[0.,fy,cy],[0.,0.,1.]]
    def c2p(s,x):
        r=[sum_([(s.K[i]+[0.])[k]*(list(x)+[1.])[k] for k in range(4)]) for i in range(3)]
        return [r[0]/r[2],r[1]/r[2]]
    def p2c(s,u,v):
        y=(v-s.cy)/s.fy
        return [(u-s.sk*y-s.cx)/s.fx,y,1.]
def w2p(p,e,x): return p.c2p(e.w2c(x))
def ray(p,e,px):
    d=p.p2c(*px)
    return (e.c2w([0.,0.,0.]),qrot(e.iq,d))
def best(rays):
    n=[normalize(d) for c,d in rays]; p=[c for c,d in rays]
    xx=[a[0]**2-1 for a in n]; yy=[a[1]**2-1 for a in n]; zz=[a[2]**2-1 for a in n]
    xy=[a[0]*a[1] for a in n]; xz=[a[0]*a[2] for a in n]; yz=[a[1]*a[2] for a in n]
    s=[[sum(xx),sum(xy),sum(xz)],[sum(xy),sum(yy),sum(yz)],[sum(xz),sum(yz),sum(zz)]]
    N=range(len(n))
    C=[sum(p[i][0]*xx[i]+p[i][1]*xy[i]+p[i][2]*xz[i] for i in N),sum(p[i][0]*xy[i]+p[i][1]*yy[i]+p[i][2]*yz[i] for i in N),sum(p[i][0]*xz[i]+p[i][1]*yz[i]+p[i][2]*zz[i] for i in N)]
    S=pinv(s)
    return [sum_([S[i][k]*C[k] for k in range(3)]) for i in range(3)]
def det3(m):
    return m[0][0]*(m[1][1]*m[2][2]-m[2][1]*m[1][2])-m[0][1]*(m[1][0]*m[2][2]-m[2][0]*m[1][2])+m[0][2]*(m[1][0]*m[2][1]-m[2][0]*m[1][1])
def rq(A):
    Pm=[[0.,0.,1.],[0.,1.,0.],[1.,0.,0.]]
    qr=qrNew(tr(mul(Pm,A)))
    return mul(mul(Pm,tr(qrR(qr))),Pm), mul(Pm,tr(qrQ(qr)))
def rqdec(m):
    K,Q=rq(m)
    for i in range(3):
        if K[i][i]<0:
            for j in range(3): K[j][i]=-K[j][i]; Q[i][j]=-Q[i][j]
    r2=[[-x for x in r] for r in Q]
    if det3(r2)<det3(Q): return shep(Q),K
    return shep(r2),[[-x for x in r] for r in K]
def frompm(pm):
    q,K=rqdec([r[:3] for r in pm])
    k=1/K[2][2]; K=[[x*k for x in r] for r in K]
    rm=lambda c:[[r[j] for j in range(4) if j!=c] for r in pm]
    x,y,z,w=det3(rm(0)),-det3(rm(1)),det3(rm(2)),-det3(rm(3))
    return P(K[0][0],K[1][1],K[0][1],K[0][2],K[1][2]),E(q,[x/w,y/w,z/w])
def aspm(p,e):
    m=mul(p.K,e.qt)
    if m[0][0]<0: m=[[-x for x in r] for r in m]
    return [[x/m[2][3] for x in r] for r in m]
def lin(p,e,X):
    p=aspm(p,e); x,y,z=X
    d=p[2][0]*x+p[2][1]*y+p[2][2]*z+p[2][3]; ds=1/(d*d)
    o=[]
    for a in (0,1):
        f=p[a][0]*x+p[a][1]*y+p[a][2]*z+p[a][3]
        o.append([-p[2][j]*ds*f+p[a][j]/d for j in range(3)])
    return o
if __name__=="__main__":
    p1,p2=P(100.,102.,.1,321.,239.9),P(200.,202.,.01,321.,239.9)
    e1=view([1.2,3.4,5.6],[2.2,3.4,5.6],[0,0,1.]); e2=view([3.4,1.2,5.6],[2.2,3.4,5.6],[0,0,1.])
    for x,w in zip([[0,0,0.],[0,0,1.],[1.,0,0],[0,1.,0]],[[1.2,3.4,5.6],[2.2,3.4,5.6],[1.2,2.4,5.6],[1.2,3.4,4.6]]):
        print('roundtrip',max(abs(a-b) for a,b in zip(e1.c2w(x),w)),max(abs(a-b) for a,b in zip(e1.w2c(e1.c2w(x)),x)))
    X=[2.21,3.41,5.61]
    r=best([ray(p1,e1,w2p(p1,e1,X)),ray(p2,e2,w2p(p2,e2,X))])
    print('ray_intersection err',[a-b for a,b in zip(r,X)],[a-b for a,b in zip(w2p(p1,e1,r),w2p(p1,e1,X))])
    e=view([10.,0,10.],[0,0,0.],[0,0,1.])
    ax=normalize([0.6785983445458471,0.6785983445458469,-0.28108463771482023])
    ex=axisangle(ax,2.5935642459694805)
    print('from_view',e.q,ex,[a-b for a,b in zip(e.q,ex)],[a+b for a,b in zip(e.q,ex)])
    # jacobian
    c=[.01,.02,.03]; o=[0,0,.01]
    J=lin(p1,e,c); q=w2p(p1,e,c); n=w2p(p1,e,[a+b for a,b in zip(c,o)])
    print('jacobian',[q[a]+sum(J[a][k]*o[k] for k in range(3))-n[a] for a in (0,1)])
    pm=aspm(p1,e1); pp,ee=frompm(pm); pm2=aspm(pp,ee)
    for pr,er,M in ((p1,e1,pm),(pp,ee,pm),(p1,e1,pm2)):
        for X in ([1.23,4.56,7.89],[1.,2.,3.]):
            h=[sum(M[a][k]*(X+[1.])[k] for k in range(4)) for a in range(3)]
            print('pmat',[a-b for a,b in zip(w2p(pr,er,X),[h[0]/h[2],h[1]/h[2]])])
    worst=0; random.seed(1)
    for t in range(20000):
        n=random.choice([2,3,5,10]); X=[random.uniform(-5,5) for _ in range(3)]
        rs=[]
        for _ in range(n):
            d=[random.gauss(0,1) for _ in range(3)]; k=random.uniform(-10,10)
            rs.append(([a-k*b for a,b in zip(X,d)],d))
        if n==2:
            a,b=normalize(rs[0][1]),normalize(rs[1][1])
            if abs(sum(x*y for x,y in zip(a,b)))>.999: continue
        r=best(rs); err=max(abs(a-b) for a,b in zip(r,X))
        worst=max(worst,err)
    print('random worst',worst,'iterations',ITER)
