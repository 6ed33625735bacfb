import os,re,unicodedata,json,sys
ROOT='/repo/nisaba/scripts'
def parse_textproto(text):
    # tokens
    toks=[];i=0;n=len(text)
    while i<n:
        c=text[i]
        if c in ' \t\r\n,;': i+=1; continue
        if c=='#':
            while i<n and text[i]!='\n': i+=1
            continue
        if c in '{}[]:': toks.append(c); i+=1; continue
        if c in '"\'':
            q=c;i+=1;s=''
            b=bytearray()
            while text[i]!=q:
                if text[i]=='\\':
                    i+=1; e=text[i]
                    m={'n':'\n','t':'\t','\\':'\\','"':'"',"'":"'"}
                    if e in m: b+=m[e].encode(); i+=1
                    elif e=='u': b+=chr(int(text[i+1:i+5],16)).encode(); i+=5
                    elif e=='x': b.append(int(text[i+1:i+3],16)); i+=3
                    else: raise Exception('esc '+e)
                else: b+=text[i].encode(); i+=1
            i+=1
            s=b.decode()
            if toks and isinstance(toks[-1],tuple) : toks[-1]=('s',toks[-1][1]+s)  # adjacent concat
            else: toks.append(('s',s))
            continue
        m=re.match(r'[A-Za-z0-9_.\-]+',text[i:])
        toks.append(m.group(0)); i+=len(m.group(0))
    # NB adjacent strings separated by comma inside lists must not concat -> handle
    return toks
def tokenize(text):
    toks=[];i=0;n=len(text)
    while i<n:
        c=text[i]
        if c in ' \t\r\n': i+=1; continue
        if c=='#':
            while i<n and text[i]!='\n': i+=1
            continue
        if c in '{}[]:,;': toks.append(c); i+=1; continue
        if c in '"\'':
            q=c;i+=1;b=bytearray()
            while text[i]!=q:
                if text[i]=='\\':
                    i+=1; e=text[i]
                    m={'n':'\n','t':'\t','\\':'\\','"':'"',"'":"'"}
                    if e in m: b+=m[e].encode(); i+=1
                    elif e=='u': b+=chr(int(text[i+1:i+5],16)).encode(); i+=5
                    elif e=='x': b.append(int(text[i+1:i+3],16)); i+=3
                    else: raise Exception('esc '+e)
                else: b+=text[i].encode(); i+=1
            i+=1
            toks.append(('s',b.decode())); continue
        m=re.match(r'[A-Za-z0-9_.\-]+',text[i:])
        if not m: raise Exception(repr(text[i:i+30]))
        toks.append(m.group(0)); i+=len(m.group(0))
    return toks
def parse(toks,pos=0,end=None):
    out=[]
    while pos<len(toks) and toks[pos]!='}':
        name=toks[pos]; pos+=1
        if name in (',',';'): continue
        if toks[pos]==':': pos+=1
        if toks[pos]=='{':
            v,pos=parse(toks,pos+1); assert toks[pos]=='}'; pos+=1
            out.append((name,v))
        elif toks[pos]=='[':
            pos+=1
            while toks[pos]!=']':
                if toks[pos]==',': pos+=1; continue
                s=''
                while isinstance(toks[pos],tuple): s+=toks[pos][1]; pos+=1
                out.append((name,s))
            pos+=1
        elif isinstance(toks[pos],tuple):
            s=''
            while isinstance(toks[pos],tuple): s+=toks[pos][1]; pos+=1
            out.append((name,s))
        else:
            out.append((name,toks[pos])); pos+=1
    return out,pos
def name_to_char(prefixes,suffix):
    r=[]
    for p in list(prefixes)+['']:
        u=(p+' '+suffix).lstrip()
        try:
            c=unicodedata.lookup(u)
            if len(c)>1 or unicodedata.category(c)!='Cc': r.append((c,u))
        except KeyError: pass
    if len(r)!=1: raise ValueError(f'{prefixes} {suffix} {r}')
    return r[0][0]
def entries(prefixes,uname,raw):
    if raw and not uname: return raw
    s=''.join(name_to_char(prefixes,u) for u in uname)
    if raw and s!=raw: raise ValueError((s,raw,uname))
    return s
def convert(files):
    text='\n'.join(open(f,encoding='utf8').read() for f in files)
    msg,_=parse(tokenize(text))
    up=list(dict.fromkeys(v for k,v in msg if k=='uname_prefix')); tp=list(dict.fromkeys(v for k,v in msg if k=='to_uname_prefix'))
    out=[]
    for k,v in msg:
        if k!='item': continue
        g=lambda n:[b for a,b in v if a==n]
        raw=(g('raw') or [''])[-1]; traw=(g('to_raw') or [''])[-1]
        try:
            src=entries(up,g('uname'),raw)
            dst=None
            if g('to_uname') or traw: dst=entries(tp or up,g('to_uname'),traw)
        except ValueError as e:
            print('ERR',files,v,e,file=sys.stderr); raise
        out.append((src,dst))
    return out
def run_build(d, kind):
    tables={}
    COMMON = ROOT+('/brahmic/data' if kind=='brahmic' else '/abjad_alphabet/data/Arab')
    def res(p):
        if p=='' : return d
        assert p.startswith('//nisaba/scripts'); return '/repo/'+p[2:]
    def comp(names,prefix_from,frm):
        for n in names:
            fs=[res(prefix_from)+'/uname_prefix.textproto']+[res(x)+'/'+n+'.textproto' for x in frm]
            tables[n]=(fs,convert(fs))
    upf = '' if kind=='brahmic' else '//nisaba/scripts/abjad_alphabet/data/Arab'
    cm='//'+COMMON[len('/repo/'):]
    def local(names,name='',uname_prefix_from=upf,more_text_protos_from=[]): comp(names,uname_prefix_from,['']+more_text_protos_from)
    def localc(names,name='',uname_prefix_from=upf,more_text_protos_from=[]): comp(names,uname_prefix_from,['',cm]+more_text_protos_from)
    def fromc(names,name='',uname_prefix_from=upf,more_text_protos_from=[]): comp(names,uname_prefix_from,[cm]+more_text_protos_from)
    def empty(names,name=''):
        for n in names: tables[n]=([],[])
    def ctsv(name,text_protos):
        fs=[d+'/'+t[1:] for t in text_protos]; tables[name]=(fs,convert(fs))
    env=dict(load=lambda *a,**k:None,package=lambda **k:None,licenses=lambda *a:None,exports_files=lambda *a,**k:None,glob=lambda *a:[],
      components_tsv_local=local,components_tsv_local_with_common=localc,components_tsv_from_common=fromc,empty_components_tsv=empty,component_tsv=ctsv,
      setup_letter_languages=lambda **k:None, py_library=lambda **k:None, filegroup=lambda **k:None)
    if kind=='abjad' and d.endswith('Arab'):
        env['components_tsv_local']=lambda names,**k: comp(names,'',[''])
    exec(open(d+'/BUILD.bazel').read(),env)
    return tables
def all_tables():
    B=ROOT+'/brahmic/data'; A=ROOT+'/abjad_alphabet/data/Arab'
    T={}
    for d in [B]+[B+'/'+x for x in sorted(os.listdir(B)) if os.path.isdir(B+'/'+x)]:
        T['brahmic/'+os.path.relpath(d,B)]=run_build(d,'brahmic')
        if d!=B:
            for l in os.listdir(d):
                if os.path.isdir(d+'/'+l): T['brahmic/'+os.path.relpath(d+'/'+l,B)]=run_build(d+'/'+l,'brahmic')
    T['abjad']=run_build(A,'abjad')
    for l in sorted(os.listdir(A)):
        if os.path.isdir(A+'/'+l): T['abjad/'+l]=run_build(A+'/'+l,'abjad')
    return T
if __name__=='__main__':
    T=all_tables()
    for k in T:
        print(k,{n:len(t[1]) for n,t in T[k].items()})
    json.dump({k:{n:t for n,t in v.items()} for k,v in T.items()},open('/tmp/work/tables.json','w'),ensure_ascii=False)
