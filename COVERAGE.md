# Functions of /repo and the definitions that model them

Generated by tools/coverage.py from the citations in lean/Verif/Model; test files are left out.

## cmd/bridge/bridge.go

| function | lines | definitions |
|---|---|---|
| VerifyInd | 32-84 | Bridge:verifyInd |
| MessageOfRequestBridges | 90-102 | Message:messageOfRequestBridges |
| MessageOfPostBridge | 104-109 | Message:messageOfPostBridge |
| MessageOfGotSignatures | 111-115 | Message:messageOfGotSignatures |
| MessageOfVote | 117-125 | Message:messageOfVote |
| EncodeAssignmentList | 151-157 | Net:NetEnv, Net:NetEnv.asgListEnc |
| DecodeAssignmentList | 159-165 | Net:NetEnv, Net:NetEnv.asgListDec |
| EncodeAssignment | 167-171 | Net:NetEnv, Protobuf:pbField, Protobuf:pbEncodeAssignment |
| DecodeAssignment | 173-189 | Net:NetEnv, Protobuf:pbValue, Protobuf:pbMessage, Protobuf:PartAssignment, Protobuf:pbPutAssignment, Protobuf:pbDecodeAssignment |

## cmd/client/ClientHandler.go

| function | lines | definitions |
|---|---|---|
| Handle | 14-56 | Client:handle, ClientRace:moments, Listener:Listener.step, Wire:clientRead, Wire:Client.handleBytes |
| handleRegisterConfirmation | 59-94 | Client:handleRegisterConfirmation, Net:recvFO, Wire:Params.fo1, Wire:Params.fo |
| handleInitPedersenR | 96-100 | Client:handleInitPedersenR |
| handleGnHonestyAnswer | 103-112 | Client:handleHonestyAnswer |
| handleVotePhaseStart | 115-126 | Client:handleVotePhaseStart |
| handleRoundEnd | 129-142 | Client:handleRoundEnd |
| handleBroadcastPedersenRDiff | 144-154 | Client:handleRDiff |
| handleVoteReply | 157-165 | *only prints: the `voteReply` case of Client:Client.handle* |
| handleAnnouncementFinalize | 179-214 | Client:handleAnnouncementFinalize, Wire:rawPoint |
| handleGotSignatures | 246-261 | Client:handleGotSignatures |

## cmd/client/ClientLauncher.go

| function | lines | definitions |
|---|---|---|
| register | 35-44 | Backlog:Thread, Client:register |
| startClientListener | 49-60 | Backlog:SEvent.thread, Backlog:BSys.Step, ClientRace:timeline, Crash:KSys.Step, Links:LSys.Transport, Micro:SEvent.isOther, System:Sys.Step, Wire:WSys.Step |
| postBridge | 65-86 | Client:postBridge, ClientRace:postAt, Message:PostParams |
| requestBridges | 91-146 | Bridge:RequestCoins, Bridge:makeRequest, Client:requestBridges, ClientRace:requestAt, Message:RequestParams |
| sendVote | 206-234 | Client:sendVote, ClientRace:voteAt, Message:VoteParams |
| sendVote2 | 236-262 | RingVote:voteText, RingVote:Client.sendVote2 |
| initClient | 268-291 | Client:initClient |
| Launch | 294-348 | Backlog:Thread, Backlog:SEvent.thread, Backlog:BSys.Step, Command:typedLine, Command:typedLines, Command:ParsedUint, Command:parseUintFrom, Command:atoiFastFrom, Command:atoi, Command:Typed, Command:wVote, Command:wPost, Command:wGet, Command:wExit, Command:Client.typed, Crash:KSys.Step, Launch:loopback, Launch:Listening, Launch:bindable, Launch:listenTCP, Launch:Machine.step, Links:LSys.Listens, Micro:SEvent.isOther, Orderly:Sys.ORun, System:SEvent, System:Sys.Step, Wire:WSys.Step |

## cmd/client/DissentClient.go

| function | lines | definitions |
|---|---|---|
| ClearBuffer | 46-48 | *written out in Client:handleRoundEnd* |
| AddAssignment | 50-53 | *written out in Client:handleGotSignatures* |

## cmd/coordinator/Coordinator.go

| function | lines | definitions |
|---|---|---|
| GetLastServerAddr | 87-92 | Coordinator:getLastServerAddr, MapRace:Act |
| GetFirstServerAddr | 95-100 | Coordinator:getFirstServerAddr, MapRace:Act |
| AddClient | 102-111 | Coordinator:addClient, MapRace:Act, MapRace:scanActs, MapRace:addClientActs, MapRace:UseStep |
| AddServer | 114-117 | Coordinator:addServer, MapRace:Act, MapRace:UseStep |
| GetServerPublicKey | 119-121 | Coordinator:getServerPublicKey, MapRace:Act, MapRace:UseStep |
| GetServerIndex | 123-131 | Coordinator:serverIndexFrom, Coordinator:getServerIndex, MapRace:Act, MapRace:UseStep |
| SignMessage | 133-137 | Coordinator:signMessage, MapRace:Act, MapRace:UseStep |
| AddMsgLog | 140-143 | Coordinator:addMsgLog, GoMap:GoMap.getD, MapRace:Act, MapRace:UseStep |
| InitAssignmentSignatures | 146-151 | Coordinator:initAssignmentSignatures, GoMap:GoMap.getD, MapRace:Act, MapRace:openActs, MapRace:UseStep |
| AddAssignmentSignature | 154-160 | Coordinator:addAssignmentSignature, GoMap:GoMap.getD, MapRace:Act, MapRace:openActs, MapRace:UseStep |
| FinishCollectingAssignmentSignatures | 162-165 | Coordinator:finishCollecting, GoMap:GoMap.getD, MapRace:Act, MapRace:UseStep |
| GetAssignmentSignatures | 167-169 | Coordinator:getAssignmentSignatures, GoMap:GoMap.getD, MapRace:Act, MapRace:UseStep |
| AddBridge | 171-173 | Coordinator:addBridge, GoMap:GoMap.getD, MapRace:Act, MapRace:UseStep |
| GetBridge | 175-185 | Coordinator:getBridge, GoMap:GoMap.getD, MapRace:Act, MapRace:getBridgeActs, MapRace:UseStep |
| GetBridges | 187-198 | Coordinator:getBridgesN, Coordinator:getBridges, GoMap:GoMap.getD, MapRace:Act, MapRace:getBridgesActs, MapRace:UseStep |
| AssignBridges | 200-208 | Coordinator:assignBridges, GoMap:GoMap.getD, MapRace:Act, MapRace:UseStep |
| ClearBridges | 210-212 | Coordinator:clearBridges, MapRace:Act, MapRace:UseStep |
| GetReputationDiff | 215-217 | Coordinator:getReputationDiff, MapRace:Act, MapRace:UseStep |
| AddClientInBuffer | 219-221 | Coordinator:addClientInBuffer, MapRace:Act, MapRace:UseStep |
| AddIntoEndingMap | 223-227 | Coordinator:addIntoEndingMap, MapRace:Act, MapRace:UseStep |
| AddIntoRepMap | 229-233 | Coordinator:addIntoRepMap, MapRace:Act, MapRace:UseStep |
| ClearVoteRecords | 235-237 | Coordinator:clearVoteRecords, MapRace:Act, MapRace:UseStep |
| IsLinkableRecord | 239-246 | Coordinator:isLinkableRecord, MapRace:Act, MapRace:UseStep |
| AddToVoteRecords | 248-250 | Coordinator:addToVoteRecords, MapRace:Act, MapRace:UseStep |

## cmd/coordinator/CoordinatorHandler.go

| function | lines | definitions |
|---|---|---|
| Handle | 25-71 | Coordinator:Coins, Coordinator:handle, Listener:Listener.step, MapRace:handlerActs, MapRace:RSys.Step, Micro:Msg.late, Micro:MSys.Step, Wire:orMalformed, Wire:coordRead, Wire:Coordinator.handleBytes |
| handleAnnouncement | 76-127 | Coordinator:handleAnnouncement, MapRace:announcementActs, Micro:HandlerLate, Micro:HandlerLate.apply, Micro:Msg.late, Micro:HandlerLate.undo, Net:FinMsg, Wire:Params.bytes |
| handleServerRegister | 130-172 | Coordinator:handleServerRegister, Launch:addrText, Micro:HandlerLate, Micro:HandlerLate.apply, Micro:Msg.late, Micro:HandlerLate.undo, Wire:writeFO, Wire:rawPoint |
| handleUpdatePedersenH | 174-177 | Coordinator:handleUpdatePedersenH |
| handleClientRegisterControllerSide | 181-210 | Coordinator:handleClientRegisterController, Crash:Coordinator.sentBeforePanic, Wire:rawPoint |
| handleClientRegisterServerSide | 213-252 | Coordinator:handleClientRegisterServer, Micro:HandlerLate, Micro:HandlerLate.apply, Micro:Msg.late, Micro:HandlerLate.undo, Wire:writeFO, Wire:Params.str, Wire:rawPoint, Wire:Params.addr |
| handleGnHonestyChallenge | 254-265 | Coordinator:handleHonestyChallenge |
| handlePostBridge | 267-290 | Coordinator:handlePostBridge, MapRace:postActs |
| handleRequestBridges | 293-362 | Coordinator:openEntries, Coordinator:handleRequestBridges, MapRace:openActs, MapRace:requestActs, Message:GotSignsParams, Net:SignReq, Wire:Params.int |
| handleGotSignatures | 364-410 | Coordinator:collect, Coordinator:handleGotSignatures, Crash:Coordinator.collectSent, MapRace:collectActs, MapRace:gotSignsActs, Message:GotSignsParams, Wire:Params.bool |
| handleVote | 495-544 | Coordinator:checkServerSigs, Coordinator:handleVote, MapRace:voteActs |
| handleRoundEnd | 603-643 | Coordinator:handleRoundEnd, MapRace:roundEndActs, Micro:HandlerLate, Micro:HandlerLate.apply, Micro:Msg.late, Micro:HandlerLate.undo |

## cmd/coordinator/CoordinatorLauncher.go

| function | lines | definitions |
|---|---|---|
| startServerListener | 29-40 | Backlog:SEvent.thread, Backlog:BEvent, Backlog:BSys.Step, CoordProc:CEvent, Crash:KSys.Step, History:CRec, History:CHist, History:CoordProc.history, Links:LSys.Transport, Links:Link.AtEnd, Listener:Conn, Listener:Listener, Listener:ListenEvent, Listener:ListenEvent.own, Listener:Listener.current, Listener:Listener.run, MapRace:RSys, MapRace:RSys.Step, Micro:MSys, Micro:MEvent, Micro:MSys.Step, System:Sys.Step, Wire:WSys.Step |
| initCoordinator | 45-79 | Backlog:BSys.init, Coordinator:initCoordinator, Crash:KSys.init, Launch:loopback, Launch:Machine.step, Links:initLSys, MapRace:RSys.init, Micro:MSys.init, Net:Addr, Suite:Suite, System:initSys, Wire:initWSys |
| configCommParams | 82-95 | Backlog:BSys.init, Coordinator:configCommParams, Crash:KSys.init, Links:initLSys, MapRace:CoordProc.acts, MapRace:RSys.init, Micro:MSys.Step, Micro:MSys.init, System:initSys, Wire:initWSys |
| clearBuffer | 100-106 | Coordinator:clearBuffer, MapRace:CoordProc.acts |
| announce | 112-138 | Coordinator:announce, GoMap:Iter, GoMap:Iter.id, GoMap:Iter.reverse, GoMap:GoMap.iter, MapRace:rangeActs, MapRace:CoordProc.acts, Micro:MSys.Step, Net:TableMsg, Wire:writeTable |
| roundEnd | 144-196 | Coordinator:mergeNewClients, Coordinator:roundEnd, GoMap:Iter, GoMap:Iter.id, GoMap:Iter.reverse, GoMap:GoMap.iter, MapRace:endActs, MapRace:CoordProc.acts, Micro:MainLate, Micro:MainLate.apply, Micro:CoordProc.late, Micro:MainLate.undo, Micro:MSys.Step, Net:TableMsg, Wire:writeTable |
| vote | 203-210 | Coordinator:startVote, MapRace:CoordProc.acts, Micro:MSys.Step |
| addFakeClients | 212-224 | Coordinator:addFakeClients, MapRace:CoordProc.acts |
| waitKeypress | 226-230 | Operator:Stdin, Operator:waitKeypressFrom, Operator:waitKeypress |
| Launch | 233-291 | Backlog:Thread, Backlog:SEvent.thread, Backlog:BSys.Step, Backlog:BSys.init, CoordProc:CoordProc, CoordProc:CEvent, CoordProc:CoordProc.step, CoordProc:CoordProc.run, CoordProc:initCoordProc, Crash:KSys.Step, Crash:KSys.init, History:CRec, History:CHist, History:CoordProc.history, Launch:Listening, Launch:bindable, Launch:listenTCP, Launch:Machine.step, Links:LSys.Listens, Links:initLSys, Listener:Listener.init, MapRace:CoordProc.acts, MapRace:RSys, MapRace:RSys.Step, MapRace:RSys.init, Micro:MainLate, Micro:MainLate.apply, Micro:CoordProc.late, Micro:MainLate.undo, Micro:MSys, Micro:MEvent, Micro:MSys.Step, Micro:MSys.init, Operator:afterWaits, Orderly:Orderly, Orderly:Sys.ORun, System:SEvent, System:CEvent.isMain, System:Sys.Step, System:initSys, Wire:WSys.Step, Wire:initWSys |

## cmd/main.go

| function | lines | definitions |
|---|---|---|
| main | 11-29 | Backlog:BSys.Run, Command:Role, Command:launched, Crash:SEvent.actor, Crash:KSys.Run, Launch:Launched, Launch:Machine, Launch:MachineEvent, Launch:Machine.run, Links:LSys, Links:LSys.Run, System:Sys, System:Sys.Run, Wire:WSys, Wire:WSys.Run |

## cmd/server/AnonServer.go

| function | lines | definitions |
|---|---|---|
| AddIntoEndingMap | 46-50 | Server:addIntoEndingMap |

## cmd/server/AnonServerHandler.go

| function | lines | definitions |
|---|---|---|
| Handle | 22-58 | Listener:Listener.step, Server:Coins, Server:handle, Wire:serverRead, Wire:Server.handleBytes |
| verifyNeffShuffle | 60-78 | Listener:Listener.step, Server:verifyNeffShuffle, ShuffleBytes:hashVerify, ShuffleBytes:refused, ShuffleBytes:readProof, Wire:Params.has, Wire:rawPoint, Wire:Params.shuffled |
| handleRoundEnd | 80-175 | Net:ShuffleInfo, Net:TableMsg, Server:HopCoins, Server:shuffleTable, Server:takeExactly, Server:handleRoundEnd, ShuffleBytes:ShuffleOut.hashProve, Wire:Wire, Wire:writeTable |
| handleBroadcastPedersenH | 177-179 | Server:handleBroadcastPedersenH |
| rebindReputation | 181-192 | Server:bindMap, Server:rebindReputation |
| convertToOrigin | 194-203 | Server:convertToOrigin |
| neffShuffle | 206-211 | *passes its arguments on to shuffle.Shuffle: written out in Server:handleAnnouncement and Server:handleRoundEnd* |
| handleClientRegisterServerSide | 214-232 | Server:handleClientRegister |
| handleUpdateNextHop | 234-238 | Launch:resolveAddr, Server:handleUpdateNextHop |
| handleAnnouncement | 240-336 | Net:ShuffleInfo, Net:TableMsg, Server:HopCoins, Server:takeExactly, Server:announcedBase, Server:handleAnnouncement, ShuffleBytes:ShuffleOut.hashProve, Wire:Wire, Wire:writeTable, Wire:rawPoint |
| handleAnnouncementFinalize | 339-362 | Server:handleAnnouncementFinalize |
| handleSignAssignments | 364-402 | Net:SignReply, Server:handleSignAssignments |
| handleServerRegisterReply | 405-444 | Launch:resolveAddr, Net:recvFO, Server:handleServerRegisterReply, Wire:Params.fo1, Wire:Params.fo |

## cmd/server/ServerLauncher.go

| function | lines | definitions |
|---|---|---|
| serverRegister | 27-36 | Backlog:Thread, Server:Server.register |
| startAnonServerListener | 41-52 | Backlog:SEvent.thread, Backlog:BSys.Step, Crash:KSys.Step, Links:LSys.Transport, Micro:SEvent.isOther, System:Sys.Step, Wire:WSys.Step |
| initAnonServer | 58-88 | Restart:Sys.restartServer, Server:initServer |
| Launch | 90-127 | Backlog:SEvent.thread, Backlog:BSys.Step, Launch:anyIP, Launch:Listening, Launch:bindable, Launch:listenTCP, Launch:serverListen, Launch:Machine.step, Links:LSys.Listens, Micro:SEvent.isOther, Orderly:Sys.ORun, Restart:Sys.restartServer, System:SEvent, System:Sys.Step, Wire:WSys.Step |

## primitive/fujiokam/FujiOkamCommitment.go

| function | lines | definitions |
|---|---|---|
| genRandomSecret | 42-71 | FujiOkam:genRandomSecret |
| genGn | 74-78 | FujiOkam:genGn |
| genH | 81-108 | FujiOkam:genH |
| CreateMinimumBase | 110-123 | FujiOkam:randomRadius |
| CreateBase | 125-128 | *passes the suite on to CreateBaseFromSuite* |
| genSafePrime512 | 130-141 | Operator:setString10, Operator:genSafePrime512 |
| CreateBaseFromSuite | 143-163 | FujiOkam:createFOBase |
| sampleZpq | 166-185 | FujiOkam:sampleZpq |
| GenerateGnHonestyProof | 193-203 | FujiOkam:honestyPublics, HonestyGen:generateGnSecrets |
| ChallengeGnHonesty | 205-212 | *random bits: an argument in the model* |
| AnswerGnHonesty | 214-228 | FujiOkam:answerGnHonesty |
| CheckGnHonesty | 230-251 | FujiOkam:checkPosition, FujiOkam:checkLoop, FujiOkam:checkGnHonesty |
| GenerateAllGnHonestyProof | 253-265 | FujiOkam:block, HonestyGen:generateBlocks, HonestyGen:generateAllGnHonestyProof |
| ChallengeAllGnHonesty | 267-277 | FujiOkam:block |
| AnswerAllGnHonesty | 279-289 | FujiOkam:block, FujiOkam:FOBase.gens, FujiOkam:FOTrapdoor.alphas, FujiOkam:answerFrom, FujiOkam:answerAllGnHonesty |
| CheckAllGnHonesty | 291-314 | FujiOkam:block, FujiOkam:FOBase.gens, FujiOkam:FOTrapdoor.alphas, FujiOkam:checkFrom, FujiOkam:checkAllGnHonesty |
| decomposeThreeSquareHelper | 323-344 | FujiOkam:wrap64, FujiOkam:threeSquareSearch, FujiOkam:decomposeThreeSquareHelper |
| decomposeThreeSquare | 346-349 | FujiOkam:decomposeThreeSquare |
| Commit | 355-359 | *CommitWithR with a random r, which is an argument in the model* |
| CommitWithR | 361-366 | FujiOkam:FOBase.commitWithR |
| ProveNonneg | 384-397 | FujiOkam:FOBase.proveNonneg |
| ProveNonnegHelper | 399-489 | Bridge:Env, FujiOkam:NonnegCoins, FujiOkam:nonnegChallenge, FujiOkam:FOBase.nonnegC, FujiOkam:FOBase.nonnegCr, FujiOkam:nonnegDelta, FujiOkam:FOBase.proveNonnegWith, FujiOkam:FOBase.proveNonneg |
| VerifyNonneg | 491-496 | FujiOkam:FOBase.verifyNonneg |
| VerifyNonnegHelper | 498-554 | FujiOkam:FOBase.verifyNonneg |

## primitive/fujiokam/point.go

| function | lines | definitions |
|---|---|---|
| String | 12-14 | *printing* |
| ToBinary | 16-18 | BigInt:natToBytes, FujiOkam:fToBinary |
| FromBinary | 20-23 | BigInt:bytesToNat, FujiOkam:fFromBinary |
| Point | 25-29 | *allocation* |
| PointFromN | 31-35 | *conversion of types, identity on the numbers of the model* |
| PointFromRaw | 37-42 | *conversion of types, identity on the numbers of the model* |
| SetBigInt | 44-47 | *conversion of types* |
| ToBigInt | 49-51 | *conversion of types* |
| PointArrayToBigIntArray | 53-60 | *conversion of types* |
| BigIntArrayToPointArray | 62-69 | *conversion of types* |
| Equal | 71-73 | FujiOkam:fEqual |
| Add | 75-79 | FujiOkam:fAdd |
| Sub | 81-85 | FujiOkam:fSub |
| Mul | 87-91 | FujiOkam:fMul |
| Exp | 93-96 | BigInt:bigExp, FujiOkam:fExp |

## primitive/fujiokam/residue.go

| function | lines | definitions |
|---|---|---|
| isPrime | 25-27 | Suite:Suite.WF |
| String | 29-29 | Suite:Suite.WF |
| Equal | 31-33 | Residue:equal, Suite:Suite.WF |
| Null | 35-38 | Residue:null, Suite:Suite.WF |
| Base | 40-43 | Residue:base, Suite:Suite.WF |
| Valid | 45-48 | Residue:valid, Suite:Suite.WF, Suite:validPoint |
| PickLen | 50-54 | BigInt:bitLen, Residue:pickLen, Suite:Suite.WF |
| Pick | 59-79 | Residue:embedLen, Residue:embed, Residue:pick, Suite:Suite.WF |
| Data | 82-93 | Residue:data |
| Add | 95-99 | BigInt:bigMod, Residue:add, Suite:pAdd |
| Sub | 101-106 | BigInt:modInverse, Residue:sub, Suite:pSub |
| Neg | 108-111 | BigInt:modInverse, Residue:neg |
| Mul | 113-119 | Residue:mul, Suite:pw, Suite:Suite.mul |
| MarshalSize | 121-123 | BigInt:bitLen, Residue:pointLen, Suite:byteLen |
| MarshalBinary | 125-131 | BigInt:Bytes, BigInt:natToBytesAux, BigInt:natToBytes, Residue:marshal, Suite:padTo, Suite:encodePoint |
| UnmarshalBinary | 133-139 | BigInt:bytesToNat, Residue:unmarshal, Suite:decodePoint |
| MarshalTo | 141-143 | *MarshalBinary to a stream; never called* |
| UnmarshalFrom | 145-147 | *never called* |
| PointLen | 156-156 | Residue:pointLen, Suite:byteLen |

## primitive/lrs/Encoding.go

| function | lines | definitions |
|---|---|---|
| ProtobufEncodeSignature | 9-17 | RingBytes:gobBigsField, RingBytes:gobSignatureBody, RingBytes:encodeSignature |
| ProtobufDecodeSignature | 19-28 | RingBytes:gobReadBigsField, RingBytes:gobReadSignatureField, RingBytes:decodeSignature |

## primitive/lrs/LinkableRingSignature.go

| function | lines | definitions |
|---|---|---|
| CreateBase | 21-32 | LRS:LRSBase.Q, RingVote:createLRS |
| H1 | 41-47 | LRS:intBytes, LRS:H1 |
| H2 | 50-56 | LRS:intBytes, LRS:H2 |
| zi1 | 59-63 | LRS:zi1 |
| zi2 | 66-70 | LRS:zi2 |
| pickZq | 73-75 | *a random number: an argument in the model* |
| computeL | 84-90 | LRS:computeL |
| computeh | 93-101 | LRS:computeh |
| Sign | 103-110 | LRS:sign |
| SignHelper | 112-181 | LRS:signHelper, RingVote:Client.sendVote2 |
| Verify | 183-189 | LRS:verify |
| VerifyHelper | 191-217 | LRS:verifyHelper |
| Linkable | 220-222 | LRS:linkable |

## primitive/pedersen/PedersenCommitment.go

| function | lines | definitions |
|---|---|---|
| CreateBase | 14-17 | *passes the suite on to CreateBaseFromSuite* |
| CreateMinimalBaseFromSuite | 20-29 | Pedersen:Suite.minimalPedersenBase |
| CreateBaseFromSuite | 32-42 | Pedersen:Suite.pedersenBase |
| Commit | 48-55 | Pedersen:commit |
| CommitWithR | 58-63 | ClientRace:requestAt, Pedersen:commitWithR |
| Randomize | 66-71 | Pedersen:randomize |
| Add | 73-75 | Pedersen:add |
| Sub | 77-79 | Pedersen:sub |
| Verify | 82-87 | Pedersen:verify |

## primitive/pedersen_fujiokam/equality.go

| function | lines | definitions |
|---|---|---|
| SecretToBigInt | 23-25 | Util:secretToBigInt |
| BigIntToSecret | 28-33 | Util:bigIntToSecret |
| ProveEqual | 35-80 | Bridge:Env, Equality:equalChallenge, Equality:proveEqual |
| VerifyEqual | 82-111 | Equality:equalT1, Equality:equalT2, Equality:verifyEqual |

## test/test.go

| function | lines | definitions |
|---|---|---|
| checkr | 12-27 | *test program* |
| test | 29-41 | *test program* |

## util/ConfigReader.go

| function | lines | definitions |
|---|---|---|
| ReadConfig | 12-17 | Config:readConfig |
| GetParameter | 19-26 | Config:getParameter |
| readLocalProperties | 28-30 | *a file name, see Config:readConfig* |
| readConnProperties | 32-34 | *a file name, see Config:readConfig* |
| readConfig | 37-54 | Config:splitEq, Config:readLine, Config:readConfigFile |

## util/Util.go

| function | lines | definitions |
|---|---|---|
| SerializeTwoDimensionArray | 29-36 | *never called* |
| Encode2DByteArray | 38-45 | Bridge:Codec, Gob:gobEncode, Gob:gobSlice, Gob:encode2DByteArray, Net:NetEnv |
| Decode2DByteArray | 47-52 | Bridge:Codec, Gob:gobDecode, Gob:gobReadElems, Gob:gobReadSlice, Gob:decode2DByteArray, Net:NetEnv |
| Encode | 54-59 | Gob:gobTooBig, Gob:gobUint, Gob:gobInt, Gob:gobBytes, Gob:GVal.raw, Gob:gobIface, Gob:gobEntries, Gob:gobMap, Gob:gobFields, Gob:GobType, Gob:gobMsg, Gob:gobDescs, Gob:gobEncode, Gob:gobEventBody, Gob:encodeEvent, Wire:WireTypes, Wire:Sends |
| SendEvent | 61-70 | Backlog:BSys, Backlog:waiting, Backlog:BEvent, Backlog:BSys.Step, Crash:SEvent.takes, Crash:Sys.sent, Crash:KSys, Crash:KEvent, Crash:KSys.Step, Gob:decText, Gob:TCPAddr4, Gob:TCPAddr4.Ok, Gob:TCPAddr4.text, Gob:sendEventBytes, Launch:digitText, Launch:decimalText, Launch:addrText, Launch:Machine.dial, Links:Link, Links:LSys, Links:LSys.Transport, Listener:ConnEnd, Listener:Conn, Listener:ListenEvent, MapRace:Act, MapRace:sends, Net:Out, Restart:Sys.restartServer, System:Packet, System:Sys, System:post, System:Next, Wire:Addr.tcp, Wire:Addr.Ok, Wire:Sends, Wire:WPacket, Wire:WPosted, Wire:WNext |
| DecodeEvent | 72-79 | Crash:SEvent.takes, Crash:KSys, Crash:KEvent, Crash:KSys.Step, Gob:gobTooBig, Gob:gobReadUint, Gob:gobReadInt, Gob:gobReadBytes, Gob:GKind.read, Gob:gobReadIface, Gob:gobReadEntries, Gob:gobReadMap, Gob:gobReadFields, Gob:gobReadMsg, Gob:gobStream, Gob:gobDecode, Gob:gobReadEventField, Gob:gobReadEvent, Gob:decodeGEvent, Gob:readDec, Gob:splitAtByte, Gob:resolveTCPAddr4, Gob:decodeEvent, Launch:readDecimal, Launch:readOctet, Launch:resolveAddr, Launch:sourceAddr, Wire:TCPAddr4.addr, Wire:Wire, Wire:WireTypes.Known |
| CheckErr | 81-86 | Crash:KSys, Crash:KEvent, Crash:KSys.Step |
| EncodeBigInt | 92-100 | Gob:gobEncode, Gob:bigGob, Gob:gobBig, Gob:encodeBigInt |
| DecodeBigInt | 102-111 | Gob:gobDecode, Gob:bigUngob, Gob:gobReadBig, Gob:decodeBigInt |
| ProtobufEncodeBoolList | 113-119 | Protobuf:uvarintAux, Protobuf:uvarint, Protobuf:pbField, Protobuf:pbEncodeBools |
| ProtobufDecodeBoolList | 121-133 | Protobuf:readUvarint, Protobuf:pbValue, Protobuf:pbMessage, Protobuf:pbUnpackBools, Protobuf:pbDecodeBools |
| ProtobufEncodeBigIntList | 135-143 | Gob:gobEncode, Gob:gobBig, Gob:encodeBigIntList, Wire:WireTypes |
| ProtobufDecodeBigIntList | 145-154 | Gob:gobDecode, Gob:gobReadBig, Gob:decodeBigIntList, Wire:Wire, Wire:WireTypes.Known |
| EncodeARGnonneg | 160-168 | Bridge:Codec, Bridge:Env, Gob:gobEncode, Gob:gobBig, Gob:encodeARGnonneg |
| DecodeARGnonneg | 170-179 | Bridge:Codec, Bridge:Env, Gob:gobDecode, Gob:gobReadBig, Gob:gobReadBigField, Gob:gobReadBigs, Gob:decodeARGnonneg |
| EncodeARGequal | 185-193 | Bridge:Codec, Bridge:Env, Gob:gobEncode, Gob:encodeARGequal |
| DecodeARGequal | 195-204 | Bridge:Codec, Bridge:Env, Gob:gobDecode, Gob:gobReadBigField, Gob:gobReadBigs, Gob:decodeARGequal |
| EncodePoint | 210-214 | Suite:encodePoint |
| DecodePoint | 216-221 | Net:recvPoint, Suite:decodePoint, Wire:Params.point |
| EncodeSecret | 223-227 | Suite:encodeSecret |
| DecodeSecret | 229-234 | Suite:decodeSecret |
| EncodeIntArray | 236-244 | Gob:gobEncode, Gob:encodeIntArray, Wire:WireTypes |
| DecodeIntArray | 246-255 | Gob:gobDecode, Gob:decodeIntArray, Wire:Wire, Wire:WireTypes.Known |
| ProtobufEncodePointList | 257-263 | Net:NetEnv, Protobuf:uvarint, Protobuf:pbField, Protobuf:pbEncodePoints |
| ProtobufDecodePointList | 265-278 | Net:NetEnv, Net:recvPoints, Protobuf:readUvarint, Protobuf:pbValue, Protobuf:pbMessage, Protobuf:pbDecodePoints, Wire:Params.points |
| ProtobufEncodeSecretList | 280-286 | Net:NetEnv, Protobuf:uvarint, Protobuf:pbField, Protobuf:pbEncodeSecrets |
| ProtobufDecodeSecretList | 288-301 | Net:NetEnv, Protobuf:readUvarint, Protobuf:pbValue, Protobuf:pbMessage, Protobuf:pbDecodeSecrets |
| ByteToInt | 303-307 | Util:byteToInt |
| IntToByte | 309-313 | Util:intToByte |
| SecretToBigInt | 316-318 | Util:secretToBigInt |
| BigIntToSecret | 321-326 | Util:bigIntToSecret |
| PointToBigInt | 329-333 | Util:pointToBigInt |
| BigIntToPoint | 336-340 | Util:bigIntToPoint |
| FindCommUsingKeyList | 342-349 | Util:findCommFrom, Util:findCommUsingKeyList |
| FindIndexWithinKeyList | 353-360 | Util:findIndexFrom, Util:findIndexWithinKeyList |
| FindIntUsingKeyList | 362-370 | Util:findIntFrom, Util:findIntUsingKeyList |
| hashElGamal | 381-386 | Util:hashElGamal |
| ElGamalSign | 392-413 | Util:writeSig, Util:elGamalSign |
| ElGamalVerify | 415-441 | Util:readSig, Util:elGamalVerify |
| ElGamalEncrypt | 444-456 | Util:elGamalEncrypt |
| ElGamalDecrypt | 458-465 | Util:elGamalDecrypt |

## util/shuffle/biffle.go

| function | lines | definitions |
|---|---|---|
| bifflePred | 9-28 | BiffleProof:Pred.reps, BiffleProof:repPoint, BiffleProof:branchPoints, Shuffle:Pred.holds, Shuffle:Pred.allHold, Shuffle:Pred.someHold, Shuffle:biffleBranch, Shuffle:bifflePred |
| bifflePoints | 30-44 | Shuffle:bifflePoints |
| Biffle | 47-77 | BiffleProof:BiffleProof, BiffleProof:biffleCommit, BiffleProof:biffleSubs, BiffleProof:biffleAnswers, BiffleProof:biffleProve, BiffleProof:biffleHashProve, Shuffle:xorBit, Shuffle:biffle |
| BiffleVerifier | 79-86 | BiffleProof:biffleChecks, BiffleProof:biffleHashVerify |
| BiffleTest | 88-134 | BiffleProof:putBiffleV, BiffleProof:biffleSecrets, BiffleProof:biffleBytes, BiffleProof:biffleHashProve, BiffleProof:getBiffle, BiffleProof:biffleHashVerify |

## util/shuffle/pair.go

| function | lines | definitions |
|---|---|---|
| Init | 97-116 | Shuffle:shuffle, ShuffleBytes:vec |
| Prove | 118-224 | Shuffle:Oracle, Shuffle:invLoop, Shuffle:PairCoins, Shuffle:pairProve, ShuffleBytes:PubRand, ShuffleBytes:putEga1, ShuffleBytes:putEga5, ShuffleBytes:hashOracle, ShuffleBytes:proofBytes |
| Verify | 227-305 | Shuffle:PSProof.valid, Shuffle:pairChecks, Shuffle:pairVerify, Shuffle:verifier, ShuffleBytes:PubRand, ShuffleBytes:getPoint, ShuffleBytes:getSecret, ShuffleBytes:getMany, ShuffleBytes:portion, ShuffleBytes:getProof |
| Shuffle | 311-360 | Shuffle:swapAt, Shuffle:swapLoop, Shuffle:pickPerm, Shuffle:ShuffleOut, Shuffle:shuffle, Shuffle:ShuffleOut.prove, ShuffleBytes:ShuffleOut.hashProve |
| Verifier | 363-372 | Shuffle:verifier, ShuffleBytes:hashVerify |

## util/shuffle/simple.go

| function | lines | definitions |
|---|---|---|
| thenc | 50-69 | Shuffle:thenc |
| Init | 71-78 | *allocation* |
| Prove | 84-174 | Shuffle:runprod, Shuffle:simpleProve, Shuffle:Oracle, ShuffleBytes:PubRand, ShuffleBytes:putSsa0, ShuffleBytes:hashOracle, ShuffleBytes:proofBytes |
| thver | 179-184 | Shuffle:thver |
| Verify | 187-255 | Shuffle:SSProof.valid, Shuffle:simpleChecks, Shuffle:simpleVerify, ShuffleBytes:PubRand, ShuffleBytes:getMany, ShuffleBytes:portion, ShuffleBytes:getProof |

## util/shuffle/test.go

| function | lines | definitions |
|---|---|---|
| TestShuffle | 10-57 | *test program* |
