import json
r={"mods":["Verif.NN.NullNet","Verif.NN.PropsNull"],"props":[["C106","Null pointers among the hidden layers",
"The constructor of NeuralNet accepts null layer pointers, and networks with them can be copied and assigned. From then on no forward pass, prediction, backward pass, update or training step returns: unless a layer before the null one throws, the pointer is dereferenced. setlrate, save to a file that can be opened and load from a file that exists always dereference it. randomize(index), gethidden and sethiddenw do so exactly when the pointer at that index is null. Networks without null pointers behave as in the rest of the model.",
"all vectors of null and non-null pointers, networks, inputs, labels, files, rates and indices",
"every position of the null pointers and every state of the other layers is quantified over; a test cannot observe undefined behaviour.",
["src/neuralnet.cpp: NeuralNet, forwardprop, backprop, update, predict, setlrate, randomize, save, load","src/neuralnet.h: gethidden, sethiddenw"]]],
"notes":{"C106":["proved","C106_no_null (agreement with the model without null pointers), C106_accepted, C106_passes, C106_setlrate_files, C106_index."]},
"design":"(C106) the loops over the layers with checked dereferences; they split at the first null pointer, and up to there agree with the loops without."}
json.dump(r,open('/tmp/gen/r106.json','w'))
