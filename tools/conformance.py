#!/usr/bin/env python3
"""Runs the models of the batch functions, computed with Lean's floats, on the project's own test vectors
(/repo/tests/smoke-testcases) and compares with the expected values. A check of the models against the code's tests, not a proof;
nothing in lean/ depends on it. Usage: conformance.py (after `lake build`); writes a temporary Lean file and runs it."""
import re,subprocess,tempfile,os,math
def lines(f):
    return [l for l in open(f).read().split('\n') if l.strip() and not l.startswith('#')]
def atof(x): # a token without digits counts as 0, as in C
    m=re.match(r'\s*[-+]?(\d+\.?\d*|\.\d+)([eE][-+]?\d+)?',x)
    return float(m.group(0)) if m else 0.0
info={}
for l in open('/repo/indicators.yaml'):
    m=re.match(r'^(\w+): \[".*?", \w+, \[(.*?)\], \[(.*?)\], \[(.*?)\]',l)
    if m:
        sp=lambda s:[x.strip() for x in s.split(',') if x.strip()]
        info[m.group(1)]=(sp(m.group(2)),sp(m.group(3)),sp(m.group(4)))
cases=[]
for f in ('untest','atoz','extra'):
    L=lines(f'/repo/tests/smoke-testcases/{f}.txt'); i=0
    while i<len(L):
        w=L[i].split(); i+=1
        ins,opts,outs=info[w[0]]
        arr=[]
        for _ in range(len(ins)+len(outs)):
            t=re.split(r'[,}\r\n]',L[i][1:]); i+=1
            arr.append([atof(x) for x in t if x])
        cases.append((f,w[0],[float(x) for x in w[1:]],arr[:len(ins)],arr[len(ins):]))
        if w[0]=='abands': # outputs lower, upper, middle; the model names them
            c=cases[-1][4]; c[1],c[2]=c[2],c[1]
def fl(x):
    s='%r'%abs(x)
    return ('(-%s)' if x<0 else '%s')%s
ls=lambda l:'['+', '.join(map(fl,l))+']'
T='''import Verif
open Verif
class Cols (α : Type) where
  n : Nat
  make : List Float → α
  un : α → List Float
instance : Cols Float := ⟨1, fun l => l[0]!, fun x => [x]⟩
instance [Cols α] [Cols β] : Cols (α × β) := ⟨Cols.n α + Cols.n β, fun l => (Cols.make l, Cols.make (l.drop (Cols.n α))), fun x => Cols.un x.1 ++ Cols.un x.2⟩
instance : Cols (HL Float) := ⟨2, fun l => ⟨l[0]!, l[1]!⟩, fun x => [x.high, x.low]⟩
instance : Cols (HLC Float) := ⟨3, fun l => ⟨l[0]!, l[1]!, l[2]!⟩, fun x => [x.high, x.low, x.close]⟩
instance : Cols (OHLC Float) := ⟨4, fun l => ⟨l[0]!, l[1]!, l[2]!, l[3]!⟩, fun x => [x.open, x.high, x.low, x.close]⟩
instance : Cols (HLV Float) := ⟨3, fun l => ⟨l[0]!, l[1]!, l[2]!⟩, fun x => [x.high, x.low, x.volume]⟩
instance : Cols (HLCV Float) := ⟨4, fun l => ⟨l[0]!, l[1]!, l[2]!, l[3]!⟩, fun x => [x.high, x.low, x.close, x.volume]⟩
instance : Cols (CV Float) := ⟨2, fun l => ⟨l[0]!, l[1]!⟩, fun x => [x.close, x.volume]⟩
instance : Cols (OC Float) := ⟨2, fun l => ⟨l[0]!, l[1]!⟩, fun x => [x.open, x.close]⟩
instance : Cols (AB Float) := ⟨2, fun l => ⟨l[0]!, l[1]!⟩, fun x => [x.a, x.b]⟩
instance : Cols (MamaOut Float) := ⟨2, fun l => ⟨l[0]!, l[1]!⟩, fun x => [x.mama, x.fama]⟩
instance : Cols (PlusMinus Float) := ⟨2, fun l => ⟨l[0]!, l[1]!⟩, fun x => [x.plus, x.minus]⟩
instance : Cols (Macd Float) := ⟨3, fun l => ⟨l[0]!, l[1]!, l[2]!⟩, fun x => [x.macd, x.signal, x.hist]⟩
instance : Cols (Stoch Float) := ⟨2, fun l => ⟨l[0]!, l[1]!⟩, fun x => [x.k, x.d]⟩
instance : Cols (Aroon Float) := ⟨2, fun l => ⟨l[0]!, l[1]!⟩, fun x => [x.down, x.up]⟩
instance : Cols (Fisher Float) := ⟨2, fun l => ⟨l[0]!, l[1]!⟩, fun x => [x.fisher, x.signal]⟩
instance : Cols (Msw Float) := ⟨2, fun l => ⟨l[0]!, l[1]!⟩, fun x => [x.sine, x.lead]⟩
instance : Cols (Bands Float) := ⟨3, fun l => ⟨l[0]!, l[1]!, l[2]!⟩, fun x => [x.lower, x.middle, x.upper]⟩
instance : Cols (Kst Float) := ⟨2, fun l => ⟨l[0]!, l[1]!⟩, fun x => [x.kst, x.signal]⟩
instance : Cols (Hurst Float) := ⟨2, fun l => ⟨l[0]!, l[1]!⟩, fun x => [x.hurst, x.dim]⟩
def good (a b : Float) : Bool := (a - b).abs < 0.001 || (1 - (a / b).abs).abs < 0.001
def check {ρ ω : Type} [Cols ρ] [Cols ω] (what : String) (batch : (Nat → Float) → List ρ → M (Ret × List ω)) (o : List Float)
    (ins outs : List (List Float)) : IO Unit := do
  let n := (ins[0]!).length
  let rows : List ρ := (List.range n).map fun i => Cols.make (ins.map (·[i]!))
  match batch (fun i => o.getD i 0) rows with
  | .error e => IO.println s!"BAD {what}: undefined behaviour {repr e}"
  | .ok (r, out) =>
    let cols := (List.range outs.length).map fun c => out.map fun w => (Cols.un w)[c]!
    let ok := r == .okay && outs.length == Cols.n ω && (cols.zip outs).all fun p => p.1.length == p.2.length && (p.1.zip p.2).all fun q => good q.1 q.2
    if ok then IO.println s!"ok {what}" else IO.println s!"BAD {what}: {repr r} got {cols} expected {outs}"
'''
for k,(f,n,o,i,a) in enumerate(cases):
    T+='def case%d : IO Unit := check "%s %s" (%sBatch (R := Float)) %s [%s] [%s]\n'%(k,f,' '.join([n]+[repr(x) for x in o]),n,ls(o),', '.join(map(ls,i)),', '.join(map(ls,a)))
T+='def main : IO Unit := do\n'+''.join('  case%d\n'%k for k in range(len(cases)))
d=tempfile.mkdtemp(); p=os.path.join(d,'Conf.lean'); open(p,'w').write(T)
r=subprocess.run(['lake','env','lean','--run',p],cwd='/verif/lean',capture_output=True,text=True)
out=r.stdout+r.stderr
print(out[:6000] if 'error' in out else '\n'.join(l for l in out.split('\n') if not l.startswith('ok')))
print(len(cases),'cases,',sum(l.startswith('ok') for l in out.split('\n')),'agree,',len({c[1] for c in cases}),'indicators')
