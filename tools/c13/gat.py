from fractions import Fraction as F
names=["E345","E34","E23","E3","E2","E1","d2k","dk","k","s","w","u3","u2","d2s","u1","ds","σ","u0","a","b","c","d","e","f","x","y"]
wt=   [3,2,2,1,1,1,3,2,1,0,0,4,3,3,2,2,1,1,1,1,1,1,1,1,0,0]
NV=len(names)
def const(k): return {(0,)*NV:F(k)} if k else {}
def var(ch):
    m=[0]*NV; m[names.index(ch)]=1; return {tuple(m):F(1)}
def add(p,q,s=1):
    r=dict(p)
    for m,c in q.items():
        r[m]=r.get(m,0)+s*c
        if r[m]==0: del r[m]
    return r
def sub(p,q): return add(p,q,-1)
def mul(p,q):
    r={}
    for m,c in p.items():
        for n,d in q.items():
            k=tuple(i+j for i,j in zip(m,n)); r[k]=r.get(k,0)+c*d
    return {m:c for m,c in r.items() if c}
class Q:
    def __init__(s,p): s.p=p
    def __add__(s,o): return Q(add(s.p,q(o).p))
    __radd__=__add__
    def __sub__(s,o): return Q(sub(s.p,q(o).p))
    def __rsub__(s,o): return Q(sub(q(o).p,s.p))
    def __mul__(s,o): return Q(mul(s.p,q(o).p))
    __rmul__=__mul__
    def __neg__(s): return Q(sub({},s.p))
    def __truediv__(s,k): return Q(mul(s.p,const(F(1)/F(k))))
    def __pow__(s,n):
        r=Q(const(1))
        for _ in range(n): r=r*s
        return r
def q(o): return o if isinstance(o,Q) else Q(const(o))
E345,E34,E23,E3,E2,E1,d2k,dk,k,s,w,u3,u2,d2s,u1,ds,sg,u0,a,b,c,d,e,f,x,y=[Q(var(n)) for n in names]
v=a*b*x
v1=v*(b+c+v); v2=v1*(b+c+v)+v*(b*c+c*d+v1)
du0=b*c/2+c*d+v1; d2u0=b*c*(c+d)/2+c*d*(d+e)+v2
rules={ # var -> replacement
 "σ": b*x/2, "u0": b/2+c+v, "u1": v*u0+du0, "u2": v*u1+v1*u0+v*du0+d2u0,
 "ds": x*(v*b+b*c)/2, "d2s": x*(v*(v*b+b*c)+(v1*b+v*b*c+b*c*(c+d)))/2}
rules.update({"s":1+sg,"w":1+x*u0,"k":c+x*u1*y,"dk":c*d+x*u2*y-x**2*u1**2*y**2,
 "d2k":c*d*(d+e)+x*u3*y-3*x**2*u1*u2*y**2+2*x**3*u1**3*y**3,
 "E1":a*s**2,"E2":b*w,"E23":s*(b*(c*w+x*u1)),"E3":s*k,"E34":s*(ds*k+s*dk),"E345":s*(ds*(ds*k+s*dk)+s*(d2s*k+2*ds*dk+s*d2k))})
h=F(1)
p1=E1-E1*E2/3-E1**2*E2/9+F(5,36)*E1*E2**2+E1*E23/9
p2=E2-E2**2/6-E23/3-E1*E2**2/6+E2**3/18-E1*E23/9+F(5,18)*E2*E23+E23*E3/9+E2*E34/9
p3=E3-E23/3-E34/3-E1*E2**2/6-E1*E23/3+E2*E23/6+F(5,18)*E23*E3-E1*E34/9+F(5,18)*E2*E34+E3*E34/9+E345/9
p4=E34-E34*E2/6-E23*E3/3-E345/3+d*E34/3-E3*d
NA=names.index('a')
def weight(m): return sum(i*j for i,j in zip(m,wt))
def reduce(p,n):
    p=dict(p); Qs={}
    ix,iy=names.index("x"),names.index("y")
    while True:
        t=None
        for m in p:
            if weight(m)<n and any(m[i] for i in list(range(NA))+[ix,iy]): t=m;break
        if t is None: break
        kf=p.pop(t)
        i=next((i for i in range(NA) if t[i]),None)
        if i is None: i=iy if t[iy] else ix
        base=list(t);base[i]-=1;base={tuple(base):kf}
        nm=names[i]
        if nm=="y": rep=1-x*u0*y          # y = 1 - x u0 y   (hy: y*(1+x*u0)=1)
        elif nm=="x": rep=(1+a*x)/3
        else: rep=rules[nm]
        p=add(p,mul(base,rep.p))
        Qs[nm]=add(Qs.get(nm,{}),base)
    low={m:kf for m,kf in p.items() if weight(m)<n}
    R={m:kf for m,kf in p.items() if weight(m)>=n}
    return R,low,Qs
def groups(R,n):
    g={}
    for m,kf in R.items():
        mu=[];rest=list(m);wsum=0
        for i in range(NV):
            while rest[i] and wsum<n and wt[i]:
                mu.append(i);rest[i]-=1;wsum+=wt[i]
        g.setdefault(tuple(mu),{})[tuple(rest)]=kf
    return g
if __name__=="__main__":
    for nm,p,n in (("p1",p1-a,4),("p2",p2-b,4),("p3",p3-c,4),("p4",p4,4),("P",E34-c*d,3),("E",E3-c,2)):
        R,low,Qs=reduce(p.p,n)
        g=groups(R,n)
        print(nm,"R",len(R),"low",low,"Q",{k_:len(v_) for k_,v_ in Qs.items()},"groups",len(g), max(len(z) for z in g.values()))
