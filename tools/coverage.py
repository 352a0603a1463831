# prints, for each source file of /repo, the lines cited by the model and the functions outside them
import re,glob,os,collections
src={}
for f in glob.glob('/repo/src/**/*.cpp',recursive=True)+glob.glob('/repo/src/**/*.h',recursive=True)+glob.glob('/repo/inc/**/*.h',recursive=True):
    if 'clReflectTest' in f: continue
    src[os.path.basename(f)]=f
cov=collections.defaultdict(set)
for f in glob.glob('/verif/lean/Verif/Model/*.lean'):
    text=open(f).read()
    cur=None
    for m in re.finditer(r'([A-Za-z]+\.(?:cpp|h))(?::([\d, -]+))?|lines? ([\d, -]+)',text):
        if m.group(1): cur=m.group(1)
        r=m.group(2) or m.group(3)
        if r and cur in src:
            for a,b in re.findall(r'(\d+)(?:-(\d+))?',r):
                cov[cur].update(range(int(a),int(b or a)+1))
for n,f in sorted(src.items(),key=lambda x:x[1]):
    L=open(f,errors='replace').read().split('\n')
    un=[i for i in range(1,len(L)+1) if i not in cov[n] and L[i-1].strip() not in('','{','}','};') and not L[i-1].strip().startswith('//') and not L[i-1].startswith('#')]
    print('%-60s lines %5d cited %5d uncited code %5d'%(f[6:],len(L),len(cov[n]),len(un)))
    if os.environ.get('V')==n:
        rs=[];s=p=None
        for i in un:
            if p is None or i>p+2:
                if s: rs.append((s,p))
                s=i
            p=i
        if s: rs.append((s,p))
        for a,b in rs: print('   ',a,b,L[a-1].strip()[:90])
