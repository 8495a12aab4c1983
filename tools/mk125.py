import json
r={"mods":["Verif.NN.PropsMixed"],"props":[["C125","Wrong sizes in networks of dense, normalising and softmax layers always throw",
"Whatever the order and sizes of the dense, normalising and softmax layers of a network (no layer object used twice): forwardprop(x) succeeds exactly if x has a sample and the dense layers, the output layer last, chain behind the width of x, and throws an exception otherwise; the other layers do not count. With one of the library's outputs, a training step succeeds exactly if moreover the labels have a row for each sample and a column for each output, and throws otherwise; every layer then keeps its class and the size of its weights. So any sequence of training steps succeeds exactly if each batch fits the network as it was built. predict succeeds exactly if forwardprop does and the output layer has a column. The behaviour is never undefined.",
"all sequences of dense, normalising and softmax layers of all sizes, all data, labels and numbers of steps",
"all architectures, sizes and histories; a test can only try some.",
["src/neuralnet.cpp: forwardprop, backprop, update","src/layer/normlayer.cpp","src/layer/softmaxlayer.cpp","src/layer/layer.cpp"]]],
"notes":{"C125":["proved","C125_forward, C125_predict, C125_training, C125_history. Over the reals: a normalising layer that divides by 0 gives NaNs in C++, not an exception (C46)."]},
"design":"(C125) induction over the hidden layers for each of the three loops: dense layers as in C67, normalising layers throw for empty matrices only, softmax layers never; sizes and classes are preserved (SameShape), so the condition is the same before each step; induction over the batches."}
json.dump(r,open('/tmp/gen/r125.json','w'))
