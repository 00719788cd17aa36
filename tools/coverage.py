#!/usr/bin/env python3
"""Regenerates COVERAGE.md: for every function in /repo the definitions of the model whose comment cites its lines, or
the reason (below) why it has none."""
import glob, os, re
root = os.path.dirname(os.path.dirname(os.path.abspath(__file__)))
repo = '/repo'
go = [f for f in sorted(glob.glob(repo + '/**/*.go', recursive=True)) if not f.endswith('_test.go')]
base = {}
for f in go: base.setdefault(os.path.basename(f), []).append(f)
cites = {}
for f in sorted(glob.glob(root + '/lean/Verif/Model/*.lean')):
    txt = open(f).read()
    for m in re.finditer(r'(?:/--(.*?)-/\s*)((?:@\[[^\]]*\]\s*)?(?:private |noncomputable )?(?:def|structure|inductive|abbrev|class)\s+([^\s:({\[]+))', txt, re.S):
        d = (m.group(1) or '').rsplit('/--', 1)[-1]
        for c in re.finditer(r'([A-Za-z_]+\.go):(\d+(?:-\d+)?(?:,\s*\d+(?:-\d+)?)*)', d):
            for r in c.group(2).split(','):
                a, _, b = r.strip().partition('-')
                cites.setdefault(c.group(1), []).append((int(a), int(b or a), os.path.basename(f)[:-5] + ':' + m.group(3)))
reasons = {
 'SerializeTwoDimensionArray': 'never called',
 'SendEvent': 'the network: `deliver` in Model/System hands a sent event to the addressee, once, in any order',
 'DecodeEvent': 'gob, see the trusted base; an event that does not decode is `Msg.malformed`',
 'Encode': 'gob, see the trusted base',
 'startServerListener': 'one handler at a time per process, in the order of arrival: `Sys` steps in Model/System',
 'startAnonServerListener': 'as startServerListener', 'startClientListener': 'as startServerListener',
 'checkr': 'test program', 'BiffleTest': 'test program', 'TestShuffle': 'test program', 'test': 'test program',
 'isPrime': 'parameter check of the library, the primes are hypotheses here',
 'PointFromN': 'conversion of types, identity on the numbers of the model',
 'PointFromRaw': 'conversion of types, identity on the numbers of the model',
 'SetBigInt': 'conversion of types', 'ToBigInt': 'conversion of types', 'PointArrayToBigIntArray': 'conversion of types',
 'BigIntArrayToPointArray': 'conversion of types',
 'handleVoteReply': 'only prints: the `voteReply` case of Client:Client.handle',
 'ClearBuffer': 'written out in Client:handleRoundEnd', 'AddAssignment': 'written out in Client:handleGotSignatures',
 'neffShuffle': 'passes its arguments on to shuffle.Shuffle: written out in Server:handleAnnouncement and Server:handleRoundEnd',
 'CreateBase': 'passes the suite on to CreateBaseFromSuite', 'ChallengeGnHonesty': 'random bits: an argument in the model',
 'Commit': 'CommitWithR with a random r, which is an argument in the model', 'String': 'printing',
 'Point': 'allocation', 'MarshalTo': 'MarshalBinary to a stream; never called', 'UnmarshalFrom': 'never called',
 'pickZq': 'a random number: an argument in the model', 'readLocalProperties': 'a file name, see Config:readConfig',
 'readConnProperties': 'a file name, see Config:readConfig', 'CheckErr': 'a panic: `none`',
 'Init': 'allocation',
}
for n in ('EncodeBigInt DecodeBigInt ProtobufEncodeBoolList ProtobufDecodeBoolList ProtobufEncodeBigIntList ProtobufDecodeBigIntList '
          'EncodeARGnonneg DecodeARGnonneg EncodeARGequal DecodeARGequal EncodeIntArray DecodeIntArray ProtobufEncodeSecretList '
          'ProtobufDecodeSecretList').split():
    reasons.setdefault(n, 'gob/protobuf of one value, see the trusted base: the message carries the value itself')
out, miss = [], []
for f in go:
    rel = f[len(repo) + 1:]
    L = open(f, errors='replace').read().split('\n')
    starts = [(i + 1, m.group(2)) for i, l in enumerate(L) for m in [re.match(r'func\s*(\([^)]*\))?\s*(\w+)', l)] if m]
    if not starts: continue
    out.append('\n## %s\n\n| function | lines | definitions |\n|---|---|---|\n' % rel)
    for k, (a, n) in enumerate(starts):
        b = next(i + 1 for i in range(a - 1, len(L)) if L[i].startswith('}') or (L[i].startswith('func') and L[i].rstrip().endswith('}')))
        ds = []
        for (x, y, d) in cites.get(os.path.basename(f), []):
            if x <= b and y >= a and d not in ds: ds.append(d)
        if not ds and n not in reasons: miss.append((rel, a, b, n))
        out.append('| %s | %d-%d | %s |\n' % (n, a, b, ', '.join(ds) if ds else '*' + reasons.get(n, 'NOT MODELLED') + '*'))
open(root + '/COVERAGE.md', 'w').write('# Functions of /repo and the definitions that model them\n\nGenerated by tools/coverage.py from the '
    'citations in lean/Verif/Model; test files are left out.\n' + ''.join(out))
for m in miss: print(m)
