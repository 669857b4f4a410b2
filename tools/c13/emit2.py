from gat import *
import textwrap
def fr(k):
    k=F(k)
    return str(k.numerator) if k.denominator==1 else f"{k.numerator}/{k.denominator}"
def mono(m,sep=" * "):
    return sep.join(sep.join([names[i]]*m[i]) for i in range(NV) if m[i])
def cm(m,k):
    mm=mono(m)
    if mm=="": return f"({fr(k)})"
    return f"({fr(k)}) * ({mm})"
def poly(p):
    return " + ".join(cm(m,p[m]) for m in sorted(p,reverse=True)) if p else "0"
def wrap(s,ind="    "):
    return "\n".join(textwrap.wrap(s,170,initial_indent=ind,subsequent_indent=ind,break_long_words=False,break_on_hyphens=False))
HEAD=open('/verif/tools/c13/head.txt').read()
eqs={"x":"3 * x = 1 + a * x","y":"y * w = 1",
"σ":"σ = b*x/2","u0":"u0 = b/2 + c + a*b*x","u1":"u1 = a*b*x*u0 + (b*c/2 + c*d + a*b*x*(b + c + a*b*x))",
"u2":"u2 = a*b*x*u1 + (a*b*x*(b + c + a*b*x)*u0 + a*b*x*(b*c/2 + c*d + a*b*x*(b + c + a*b*x)) + (b*c*(c + d)/2 + c*d*(d + e) + (a*b*x*(b + c + a*b*x)*(b + c + a*b*x) + a*b*x*(b*c + c*d + a*b*x*(b + c + a*b*x)))))",
"ds":"ds = x*(a*b*x*b + b*c)/2","d2s":"d2s = x*(a*b*x*(a*b*x*b + b*c) + (a*b*x*(b + c + a*b*x)*b + a*b*x*(b*c) + b*c*(c + d)))/2",
"s":"s = 1 + σ","w":"w = 1 + x*u0","k":"k = c + x*u1*y","dk":"dk = c*d + x*u2*y - (x*u1)^2*y^2",
"d2k":"d2k = c*d*(d + e) + x*u3*y - 3*(x*u1)*(x*u2)*y^2 + 2*(x*u1)^3*y^3",
"E1":"E1 = a*s^2","E2":"E2 = b*w","E23":"E23 = s*(b*(c*w + x*u1))","E3":"E3 = s*k","E34":"E34 = s*(ds*k + s*dk)",
"E345":"E345 = s*(ds*(ds*k + s*dk) + s*(d2s*k + 2*ds*dk + s*d2k))"}
def lemma(nm,lhs,p,n):
    R,low,Qs=reduce(p.p,n)
    assert not low
    # y rule used w expanded: y = 1 - x u0 y ; relation y*w=1 with w=1+x u0 -> need w eq: y*(1+x u0)=1 ; add Q_w contribution: y*w - y*(1+x*u0) = y*(w-1-xu0)
    if "y" in Qs:
        # base*(y - (1 - x u0 y)) = base*(y*w - 1) - base*y*(w - 1 - x u0)
        Qs["w"]=sub(Qs.get("w",{}),mul(Qs["y"],y.p))
    if "x" in Qs: # base*(x-(1+ax)/3) = base/3*(3x-1-ax)
        Qs["x"]=mul(Qs["x"],const(F(1,3)))
    used=set()
    for m in R:
        for i in range(NV):
            if m[i]: used.add(names[i])
    terms=sorted(R,reverse=True)
    import re
    txt=lhs+" "+" ".join(eqs[z] for z in Qs)+" "+" ".join(used)
    toks=set(re.findall(r"[A-Za-zσ][A-Za-z0-9]*",txt))
    vs=" ".join(z for z in names if z in toks)
    out="set_option maxHeartbeats 4000000 in\n"+f"theorem {nm} {{{vs} : ℝ}}\n"
    for z in names:
        if z in Qs: out+=f"    (h{z} : {eqs[z]})\n"
    out+="    :\n"+wrap(lhs)+" =\n"+wrap(" + ".join(cm(m,R[m]) for m in terms),"      ")+" := by\n"
    out+="  linear_combination\n"+wrap(" + ".join(f"({poly(Qs[z])}) * h{z}" for z in names if z in Qs))+"\n\n"
    # order lemma
    fn=lambda m,k_: f"({fr(k_)}) * ("+" * ".join(" * ".join([names[i]+" ε"]*m[i]) for i in range(NV) if m[i])+")"
    def prf(m):
        fs=[]
        for i in range(NV): fs+= [f"o{names[i]}"]*m[i]
        t=fs[0]
        for z in fs[1:]: t=f"({t}.mul {z})"
        return f"({t}.cmul _).le (by norm_num)"
    usedn=[z for z in names if z in used]
    o="set_option maxHeartbeats 4000000 in\n"+f"theorem ord_{nm} {{{' '.join(usedn)} : Eps → ℝ}}\n    "+" ".join(f"(o{z} : O {wt[names.index(z)]} {z})" for z in usedn)+f" :\n    O {n} fun ε =>\n"+wrap(" + ".join(fn(m,R[m]) for m in terms),"      ")+" :=\n"
    acc=prf(terms[0])
    ts=[prf(m) for m in terms]
    o+="  "+"("*(len(ts)-1)+ts[0]+"".join(f").add\n    ({z})" for z in ts[1:])+"\n\n"
    return out,o,usedn,[z for z in names if z in Qs]
L1="E1 - E1*E2/3 - E1^2*E2/9 + 5/36*E1*E2^2 + E1*E23/9 - a"
L2="E2 - 1/6*E2^2 - 1/3*E23 - 1/6*E1*E2^2 + 1/18*E2^3 - 1/9*E1*E23 + 5/18*E2*E23 + 1/9*(E23*E3) + 1/9*(E2*E34) - b"
L3="E3 - 1/3*E23 - 1/3*E34 - 1/6*E1*E2^2 - 1/3*E1*E23 + 1/6*E2*E23 + 5/18*(E23*E3) - 1/9*E1*E34 + 5/18*(E2*E34) + 1/9*(E3*E34) + 1/9*E345 - c"
L4="E34 - 1/6*(E34*E2) - 1/3*(E23*E3) - 1/3*E345 + 1/3*(d*E34) - E3*d"
A="";B=""
info={}
for nm,l,p,n in (("alg1",L1,p1-a,4),("alg2",L2,p2-b,4),("alg3",L3,p3-c,4),("alg4",L4,p4,4),("algP","E34 - c*d",E34-c*d,3),("algE","E3 - c",E3-c,2)):
    x_,y_,us,qs=lemma(nm,l,p,n)
    A+=x_;B+=y_;info[nm]=(us,qs)
open("/verif/lean/Verif/Lemmas/SlowRollAlgebra.lean","w").write(HEAD+A+"end\nend SR\nend Primpy\n")
open("/verif/tools/c13/ord.txt","w").write(B)
for k_,v_ in info.items(): print(k_,v_)
