import random,math,sys
def isp(n):
    if n<2: return False
    for q in [2,3,5,7,11,13,17,19,23,29,31,37]:
        if n%q==0: return n==q
    d=n-1;s=0
    while d%2==0: d//=2;s+=1
    for a in [2,3,5,7,11,13,17,19,23,29,31,37]:
        x=pow(a,d,n)
        if x in(1,n-1): continue
        for _ in range(s-1):
            x=x*x%n
            if x==n-1: break
        else: return False
    return True
def rho(n):
    if n%2==0: return 2
    while True:
        c=random.randrange(1,n);y=random.randrange(n);m=128;g=r=q=1
        while g==1:
            x=y
            for _ in range(r): y=(y*y+c)%n
            k=0
            while k<r and g==1:
                ys=y
                for _ in range(min(m,r-k)):
                    y=(y*y+c)%n;q=q*abs(x-y)%n
                g=math.gcd(q,n);k+=m
            r*=2
        if g==n:
            g=1
            while g==1:
                ys=(ys*ys+c)%n;g=math.gcd(abs(x-ys),n)
        if g!=n:return g
def fac(n):
    if n==1:return []
    if isp(n):return [n]
    d=rho(n);return fac(d)+fac(n//d)
p=21888242871839275222246405745257275088548364400416034343698204186575808495617
done={}
def cert(n):
    if n in done or n<1000: return
    fs=fac(n-1)
    for q in set(fs): cert(q)
    a=2
    while not(pow(a,n-1,n)==1 and all(pow(a,(n-1)//q,n)!=1 for q in set(fs))): a+=1
    done[n]=(a,sorted(set(fs)),sorted(fs))
    print(n,a,sorted(fs))
cert(p)
