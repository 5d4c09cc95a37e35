#!/usr/bin/env python3
# Regenerates MANIFEST.json from the table below.
import json
D='Verif.Dbvt.'
def c(p,st,th,note,ns=''): return dict(property=p,status=st,theorems=[ns+t for t in th],note=note)
claims=[
c('C01','proved',['c01_finite_map','c01_returns'],'refinement to a finite map for every history, every implementation of the traits, every random stream',D),
c('C02','proved',['c02_value_index'],'',D),
c('C03','proved',['c03_size'],'including absence of usize underflow',D),
c('C04','proved',['c04_height'],'',D),
c('C05','proved',['c05_do_refit_terminates'],'bound on the iterations uniform in the random stream; no law on the scalars',D),
c('C06','proved',['c06_union','c06_encloses'],'',D),
c('C07','proved',['c07_query','c07_query_exact'],'whatever the query returns is exact; it returns on trees of at most 256 levels; above that the only other outcome is a panic (C11)',D),
c('C08','proved',['c08_query_sound','c08_query_values'],'',D),
c('C09','proved',['c09_removed'],'',D),
c('C10','partial',['c10_false','c10_no_panic_partial'],'FALSE as stated (insert, update_node, remove, tick panics): negation proved; proved under the condition that the tree is never emptied while updates are pending',D),
c('C11','partial',['c11_false','c11_query_no_panic_partial','c11_small_tree_partial'],'FALSE as stated (257 equal boxes): negation proved; proved for at most 256 levels / values',D),
c('C12','proved',['c12_reorder'],'',D),
c('C13','proved',['c13_rotation_values','c13_rotation_query','c13_rotation_queries'],'query results compared whenever both queries return (C11)',D),
c('C14','proved',['c14_remove_nonleaf','c14_update_nonleaf'],'',D),
c('C18','partial',['c18_rotation_gain_partial','c18_rotation_never_fires'],'first half proved: whenever a refitting turn rotates, the area of the node shrinks by more than the threshold; second half FALSE: negation proved (rotation is the identity on up-to-date trees)',D),
]
import importlib.util,os,glob
have={x['property'] for x in claims}
for f in sorted(glob.glob(os.path.join(os.path.dirname(__file__),'claims_*.py'))):
    spec=importlib.util.spec_from_file_location('x',f); m=importlib.util.module_from_spec(spec); m.c=c; spec.loader.exec_module(m)
    claims+=m.claims
claims.sort(key=lambda x:x['property'])
json.dump({'claims':claims},open(os.path.join(os.path.dirname(__file__),'..','MANIFEST.json'),'w'),indent=1)
ids=[json.loads(l)['id'] for l in open(os.path.join(os.path.dirname(__file__),'..','properties.jsonl'))]
print('missing:',[i for i in ids if i not in {x['property'] for x in claims}])
