import json
r={"mods":["Verif.NN.SpecialCopy","Verif.NN.PropsLayerCopy"],"props":[["C96","Copied and assigned layers behave like the original",
"A layer that was copy-constructed or assigned from another one of the same class answers every sequence of calls (forwardprop, backprop, update, randominit, setlrate) exactly as the original does from its state at the time of the copy, whatever the memory of the new object or the target of the assignment contained before.",
"all dense, softmax, norm and pooling layers in all states, all sequences of calls, all previous contents of the target or its memory",
"all call sequences and all contents of uninitialised memory are quantified over; a test runs one sequence in one process image.",
["src/layer/layer.cpp: Layer(const Layer&), operator=","src/layer/normlayer.cpp: NormLayer(const NormLayer&), operator=","src/layer/softmaxlayer.cpp: SoftmaxLayer(const SoftmaxLayer&), operator=","src/layer/maxpoollayer.cpp: MaxPoolLayer(const MaxPoolLayer&), operator=","src/layer/meanpoollayer.cpp: MeanPoolLayer(const MeanPoolLayer&), operator="]]],
"notes":{"C96":["partial","True of dense and softmax layers (C96_dense_softmax) and of assigning norm layers (C96_norm_assign). False of copy-constructed norm layers, which start from uninitialised memory (C96_norm_copy_refuted; they agree after one backprop: C96_norm_copy_partial) and of copy-constructed pooling layers, whose output sizes are uninitialised (C96_pool_copy_refuted); assigned pooling layers agree when the stride is the window size and the two were made with the same sizes (C96_pool_assign_partial; otherwise the stride or the sizes are wrong, C50_stride, C50_assign_loses). Convolution layers: C50."]},
"design":"(C96) SpecialCopy.lean models the copy operations of every layer class; a bisimulation between original and copy (same members as far as any call reads them), by induction on the calls."}
json.dump(r,open('/tmp/gen/r96.json','w'))
