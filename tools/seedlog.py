#!/usr/bin/env python3
# Builds seeded/LOG.jsonl from the mutation runs: tools/seedlog.py mutants.json... results.jsonl auto_results.jsonl
import json,sys,os
*muts,res,auto=sys.argv[1:]
R={}
for l in open(res):
    r=json.loads(l); R[r['id']]=r
here=os.path.dirname(os.path.abspath(__file__))
N=json.load(open(here+'/seednotes.json'))
byfile={'Scene/SegmentRay.lean':'C129',
 'Scene/PlanePairs.lean':'C128',
 'Scene/PlaneRay.lean':'C127',
 'Minkowski/Tolerance.lean':'C104','Dbvt/RoundedSphere.lean':'C103','Dbvt/RoundedNan.lean':'C99','Scene/F64.lean':'C108','Scene/Round3.lean':'C117','Scene/SphereTree.lean':'C119','Scene/F64Pipeline.lean':'C108','Minkowski/Epa2Total.lean':'C70, C86','Scene/RoundErr.lean':'C117','Scene/Round.lean':'C117','Dbvt/BoxTree.lean':'C14 (trees of boxes)',
 'Scene/F64Closest.lean':'C111','Dbvt/Within.lean':'C112','Dbvt/RayOutside.lean':'C112','Scene/F64Ray.lean':'C110','Scene/F64Culling.lean':'C109','Scene/F64Place3.lean':'C113, C114','Scene/F64Miss3.lean':'C114','Scene/F64Pipeline3.lean':'C113','Scene/RoundFormats.lean':'C117','Scene/RoundPipeline.lean':'C118','Scene/SphereFormats.lean':'C119','Scene/F32Queries.lean':'C120, C121','Scene/SphereRay.lean':'C122','Scene/SphereCulling.lean':'C123','Scene/SphereTreeRay.lean':'C124','Scene/MatrixPlanes.lean':'C125','Scene/GjkDistance.lean':'C126','Minkowski/F64Gjk.lean':'C105-C107','Minkowski/F64Gjk3.lean':'C105',
 'Dbvt/Model.lean':'C01-C14, C18 (tree)','BroadPhase/Model.lean':'C19-C23 (broad phase)','Geom/Aabb.lean':'C24-C29 (boxes)','Geom/RayBox.lean':'C30, C31 (ray/box)',
 'Geom/Sphere.lean':'C33-C37, C59 (spheres)','Geom/Plane.lean':'C38-C40 (planes)','Geom/Frustum.lean':'C41-C43, C77 (frustum)','Geom/Line.lean':'C44, C45 (segments, points)',
 'Geom/Transform.lean':'C60 (transforms)','Geom/Transformed.lean':'C60 (transforms)','Geom/Interpolate.lean':'C58, C76 (interpolation)','Geom/InterpolateBasis.lean':'C58, C76, C82 (interpolation)','Geom/Clip.lean':'C77','Geom/Empty.lean':'C78',
 'Primitive/Model.lean':'C46-C48, C61 (primitives)','Primitive/PolygonModel.lean':'C46, C49, C50 (polygons)','Primitive/PolyhedronModel.lean':'C51, C62-C64 (polyhedra)','Primitive/Enum.lean':'C67','Primitive/EnumRay.lean':'C75',
 'Dbvt/RayClosest.lean':'C16 (closest ray hit)','Scene/Pipeline.lean':'C90','Scene/Culling.lean':'C98','Scene/Picking.lean':'C100','Scene/Moving.lean':'C101','Dbvt/Rounded.lean':'C99','BroadPhase/Nan.lean':'C102','BroadPhase/NanTree.lean':'C102','Geom/Perspective.lean':'C97','Geom/Area.lean':'C94','Minkowski/Complex.lean':'C56','Minkowski/Complex3.lean':'C56','Dbvt/VolumeTree.lean':'C14, C17, C59 (trees of volumes)','Dbvt/Gain.lean':'C18','BroadPhase/Props2.lean':'C20-C22','Minkowski/Toi.lean':'C66, C69','Primitive/Particle.lean':'C57','Primitive/RoundRay.lean':'C71-C74 (capsule, cylinder rays)','Minkowski/Model.lean':'C52-C56, C65, C66, C70, C79, C80 (GJK, EPA)'}
with open(here+'/../seeded/LOG.jsonl','w') as f:
    for m in muts:
        for x in json.load(open(m)):
            r=R.get(x['id'])
            if not r: continue
            n=N['notes'].get(x['id'],{})
            d=dict(id=x['id'],file=x['file'],definition=x['defn'],edit=x['edit'],claim=N['claims'].get(x['id'],x['claim']),old=x['old'],new=x['new'],
                   outcome='rejected by Lean' if r['rc'] else 'still proves',theorems_failed=r['fails'],theorems_tightened=n.get('tightened',[]))
            if 'note' in n: d['note']=n['note']
            f.write(json.dumps(d)+'\n')
    k=0
    seen=set()
    for l in open(auto):
        r=json.loads(l)
        if r['stillborn'] or r.get('killed'): continue
        key=(r['file'],r['defn'],r['new'])
        if key in seen: continue
        seen.add(key); k+=1
        n=N.get('auto',{}).get(r['grp']+'|'+r['edit'],{})
        d=dict(id='a%03d'%k,file=r['file'],definition=r['defn'],edit=r['edit'],claim=byfile.get(r['file'],''),old=r['old'],new=r['new'],
               outcome='rejected by Lean' if r['rc'] else 'still proves',theorems_failed=r['fails'],theorems_tightened=n.get('tightened',[]))
        if 'note' in n: d['note']=n['note']
        f.write(json.dumps(d)+'\n')
